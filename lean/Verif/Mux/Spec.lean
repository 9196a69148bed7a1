import Verif.Mux.Model
import Mathlib.Algebra.Order.Group.Abs
import Mathlib.Order.Bounds.Basic

/-! # What multiplexed files hold -/

namespace Verif.Mux

variable {K : Type} [Field K] [LinearOrder K]

/-- Records of the steps 1 to `n`: for every step a time stamp and, in the order of the stations, the values of those that record. -/
def records (s : Src K) (total : ℕ) (stamp : ℕ → K) (v : ℕ → ℕ → K) (n : ℕ) : List K :=
  (List.range n).flatMap fun it =>
    stamp (it + 1) :: ((List.range total).filter fun j => decide (fro s j ≤ it + 1 ∧ (it : ℤ) + 1 ≤ lro s j)).map fun j => v j (it + 1)

/-- A file with values `v j t` of station `j` at step `t`: stations record from a first to a last step, or never; the data block
begins with the records of all steps up to the last one. -/
structure Written (s : Src K) (total : ℕ) (v : ℕ → ℕ → K) : Prop where
  steps : ∀ j, j < total → (fro s j = -1 ∧ lro s j = -1) ∨ (1 ≤ fro s j ∧ fro s j ≤ lro s j)
  block : ∃ (stamp : ℕ → K) (n : ℕ), (∀ j, j < total → lro s j ≤ (n : ℤ)) ∧ records s total stamp v n <+: s.block

/-- The series of a station: zero before it records and if it never does, 99 after it has ended. -/
def value (s : Src K) (v : ℕ → ℕ → K) (ig : ℤ) (j t : ℕ) : K :=
  if ig = -1 ∨ fro s j = -1 then 0
  else if (t : ℤ) < fro s j then 0
  else if (t : ℤ) ≤ lro s j then v j t
  else 99

/-- Files that belong together: the same stations with the same timestep and number of steps; `v` gives the values in each. -/
structure Ready (srcs : List (Src K)) (total nt : ℕ) (dt : K) (v : Src K → ℕ → ℕ → K) : Prop where
  some : srcs ≠ [] ∧ 0 < total
  heads : ∀ s ∈ srcs, s.heads.length = total ∧ ∀ h ∈ s.heads, h.dt = dt ∧ h.nt = nt
  written : ∀ s ∈ srcs, Written s total (v s)

/-- Grid of a station, as the first file has it. -/
def grid (srcs : List (Src K)) (i : ℕ) : ℤ := (((srcs.head?.map Src.heads).getD [])[i]?.map Head.ig).getD 0

/-- Values of all sources for a station at a step, with their weights. -/
def parts (srcs : List (Src K)) (weights : List K) (v : Src K → ℕ → ℕ → K) (i t : ℕ) : List (K × K) :=
  (srcs.zip weights).map fun x => (value x.1 (v x.1) (grid srcs i) i t, x.2)

/-- The weighted sum. -/
def weighted (l : List (K × K)) : K := (l.map fun x => x.1 * x.2).sum

/-- A number that does not stand for a missing value. -/
def Data (x : K) : Prop := 1 / 100000 ≤ |x - 99|

/-- Stations asked for. -/
def chosen (total : ℕ) (perm : List ℕ) : List ℕ := if perm.isEmpty then List.range total else perm

end Verif.Mux
