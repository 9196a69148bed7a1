import Verif.FileFn.Model
import Verif.Interp.Props
import Verif.Interp.PropsTime

/-! # Vocabulary for functions read from files -/

namespace Verif.FileFn

open Verif.Polygon (Pt shift)
open Verif.Interp (PlaneThrough LineThrough)
open Verif.Quad (Tri Covers Almost)

variable {K : Type*} [Field K] [LinearOrder K]

/-- The array has one value per node, at each time if it depends on time. -/
def Shaped (nodes times : ℕ) : Var K → Prop
  | .one v => v.length = nodes
  | .two v => v.length = times ∧ ∀ r ∈ v, r.length = nodes

/-- The stored value at time number `i` and node `j`. -/
def Var.value (i j : ℕ) : Var K → K
  | .one v => v.getD j 0
  | .two v => (v.getD i []).getD j 0

/-- `idx` numbers, in order, the stored times that are used: every `n`-th, none later than the limit. -/
structure Kept (T : List K) (start : K) (n : ℕ) (limit : Option K) (idx : List ℕ) : Prop where
  sorted : idx.Pairwise (· < ·)
  mem : ∀ i, i ∈ idx ↔ ∃ t, T[i]? = some t ∧ n ∣ i ∧ ∀ l ∈ limit, t + start ≤ l

/-- Absolute times of the stored results. -/
def absTimes (T : List K) (start : K) (idx : List ℕ) : List K := idx.map fun i => T.getD i 0 + start

/-- Absolute position of node `j`. -/
def absNode (x : List (Pt K)) (corner : Pt K) (j : ℕ) : Pt K := shift corner (x.getD j ⟨0, 0⟩)

/-- The value in space: height of the plane through the three node values or, for centroids, their mean. -/
def InSpace (c : Bool) (A B C : Pt K) (fa fb fc : K) (P : Pt K) (v : K) : Prop :=
  if c then v = (fa + fb + fc) / 3 else PlaneThrough A B C fa fb fc P v

/-- A triangle of the file at (or within the tolerance around) the absolute position `P`. -/
def Around (f : File K) (x : List (Pt K)) (abc : ℕ × ℕ × ℕ) (P : Pt K) : Prop :=
  ∃ k : ℕ, f.tris[k]? = some abc ∧ Almost ⟨k, absNode x f.corner abc.1, absNode x f.corner abc.2.1, absNode x f.corner abc.2.2⟩ P

/-- `A` lies between the first and the last of the used times. -/
def Covered (f : File K) (T : List K) (idx : List ℕ) (A : K) : Prop :=
  (∃ i ∈ idx, T.getD i 0 + f.starttime ≤ A) ∧ ∃ i ∈ idx, A ≤ T.getD i 0 + f.starttime

/-- The numbers `q` are the values of the named quantities of the file at the absolute position `P` and the absolute time `A`: linear in space over
the triangle and linear in time between the used results. -/
def Shows (f : File K) (x : List (Pt K)) (T : List K) (names : List String) (cen : Bool) (idx : List ℕ) (abc : ℕ × ℕ × ℕ) (P : Pt K) (A : K)
    (q : List K) : Prop :=
  q.length = names.length ∧ ∀ (n : ℕ) (name : String), names[n]? = some name → ∃ v z, f.vars name = some v ∧ q[n]? = some z ∧ ∃ V : List K,
    V.length = idx.length ∧ (∀ j i : ℕ, idx[j]? = some i → ∃ y, V[j]? = some y ∧
      InSpace cen (absNode x f.corner abc.1) (absNode x f.corner abc.2.1) (absNode x f.corner abc.2.2) (v.value i abc.1) (v.value i abc.2.1)
        (v.value i abc.2.2) P y) ∧
    LineThrough (absTimes T f.starttime idx) V A z

/-- The start of the times of a function: that of the file, or of the domain if it is later. -/
def origin (f : File K) : Option K → K
  | none => f.starttime
  | some d => max d f.starttime

/-- All calls of a history; failing ones leave the function as it is. -/
def Fn.after (F : Fn K) : List (K × Option ℕ) → Fn K
  | [] => F
  | h :: hs =>
    match F.call h.1 h.2 with
    | .ok (G, _) => G.after hs
    | .error _ => F.after hs

/-- The file holds a mesh with the given vertices and time-varying or fixed values of the quantities, and the interpolator for that mesh can be
made. -/
structure Reads (mk : List (Pt K) → List (ℕ × ℕ × ℕ) → Option (Verif.Interp.Mesh K)) (f : File K) (names : List String) (x : List (Pt K))
    (T : List K) (vals : List (Var K)) (m : Verif.Interp.Mesh K) (ts : List (Tri K)) : Prop where
  ext : f.ext = .sww
  coords : f.coords = some x
  time : f.time = some T
  increasing : Verif.Interp.StrictlyIncreasing T
  some_names : names ≠ []
  vars : names.mapM f.vars = some vals
  shaped : ∀ v ∈ vals, Shaped x.length T.length v
  make : mk x f.tris = some m
  fits : Verif.Interp.Fits m (fun j => x.getD j ⟨0, 0⟩) ts
  nodes : m.nodes = x.length
  tris : m.tris = f.tris

end Verif.FileFn
