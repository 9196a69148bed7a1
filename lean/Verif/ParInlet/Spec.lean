import Verif.Ops.PropsInlet
import Verif.ParInlet.Model

/-! # Vocabulary for inlets shared by processors -/

namespace Verif.ParInlet

open Verif.Ops

variable {K : Type*} [Field K] [LinearOrder K] {N : ℕ → ℕ} {n : ℕ}

/-- Water in the parts of the inlet held by the processors. -/
def sharedWater (d : Doms K N) (s : States K N) (ops : InletOps K N) (procs : List ℕ) : K :=
  ∑ p ∈ procs.toFinset, ∑ i ∈ (ops p).tri.toFinset, (d p).area i * ((s p).stage i - (s p).elev i)

/-- The inlet of a domain computed on one processor, cut up: every triangle of it is held by one processor in one place, with its
area, and nothing else is held. `home` sends a triangle of a processor to the triangle it stands for. -/
structure Shared (d0 : Dom K n) (tri0 : Inlet n) (d : Doms K N) (ops : InletOps K N) (procs : List ℕ)
    (home : (p : ℕ) → Fin (N p) → Fin n) : Prop where
  lands : ∀ p ∈ procs, ∀ i ∈ (ops p).tri, home p i ∈ tri0
  covers : ∀ g ∈ tri0, ∃ p ∈ procs, ∃ i ∈ (ops p).tri, home p i = g
  once : ∀ p ∈ procs, ∀ q ∈ procs, ∀ i ∈ (ops p).tri, ∀ j ∈ (ops q).tri, home p i = home q j → p = q ∧ i.val = j.val
  area : ∀ p ∈ procs, ∀ i ∈ (ops p).tri, (d p).area i = d0.area (home p i)

/-- The operators were made with the same arguments. -/
def SameArgs (op0 : InletOp K n) (ops : InletOps K N) (procs : List ℕ) : Prop :=
  ∀ p ∈ procs, (ops p).q = op0.q ∧ (ops p).default = op0.default ∧ (ops p).velocity = op0.velocity ∧
    (ops p).zeroVelocity = op0.zeroVelocity

/-- The flow in the inlet is the same as in the run on one processor. -/
def SameFlow (s0 : State K n) (s : States K N) (ops : InletOps K N) (procs : List ℕ) (home : (p : ℕ) → Fin (N p) → Fin n) : Prop :=
  ∀ p ∈ procs, ∀ i ∈ (ops p).tri, (s p).stage i = s0.stage (home p i) ∧ (s p).elev i = s0.elev (home p i) ∧
    (s p).xmom i = s0.xmom (home p i) ∧ (s p).ymom i = s0.ymom (home p i)

/-- No triangle is listed twice on a processor and no processor twice. -/
def Listed (ops : InletOps K N) (procs : List ℕ) : Prop := procs.Nodup ∧ ∀ p ∈ procs, (ops p).tri.Nodup

/-- Some processor holds a triangle of the inlet. -/
def Nonempty (ops : InletOps K N) (procs : List ℕ) : Prop := ∃ p ∈ procs, (ops p).tri ≠ []

/-- Stages of the inlet are below the start value of the search. -/
def Below (top : K) (s : States K N) (ops : InletOps K N) (procs : List ℕ) : Prop :=
  ∀ p ∈ procs, ∀ i ∈ (ops p).tri, (s p).stage i < top

end Verif.ParInlet
