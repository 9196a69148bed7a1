import Verif.Forcing.Model

/-!
# What forcing terms are meant to do
-/

namespace Verif.Forcing

open Verif.Polygon (Pt)

/-- Within a polygon, border included, as the public function for one point decides it (C17). -/
def Within (P : List (Pt ℝ)) (p : Pt ℝ) : Prop := Polygon.isInsidePolygon Real.sqrt true p P = some true

/-- Mean of the corners. -/
noncomputable def middle (M : Loop.Mesh ℝ) (k : ℕ) : Pt ℝ :=
  ⟨((M.corner k 0).x + (M.corner k 1).x + (M.corner k 2).x) / 3, ((M.corner k 0).y + (M.corner k 1).y + (M.corner k 2).y) / 3⟩

/-- Area of a counterclockwise triangle. -/
noncomputable def size (M : Loop.Mesh ℝ) (k : ℕ) : ℝ := Polygon.twoTri (M.corner k 0) (M.corner k 1) (M.corner k 2) / 2

/-- Where a term acts. -/
inductive Place where
  | everywhere
  | circle (c : Pt ℝ) (r : ℝ)
  | polygon (P : List (Pt ℝ))

/-- The arguments `center`, `radius`, `polygon` that describe a place. -/
def Place.Args : Place → Option (Pt ℝ) → Option ℝ → Option (List (Pt ℝ)) → Prop
  | .everywhere, c, r, p => c = none ∧ r = none ∧ p = none
  | .circle a b, c, r, p => c = some a ∧ r = some b ∧ p = none
  | .polygon P, c, r, p => c = none ∧ r = none ∧ p = some P

/-- The triangle belongs to the place. -/
def Place.Has (M : Loop.Mesh ℝ) : Place → ℕ → Prop
  | .everywhere, k => k < M.n
  | .circle c r, k => k < M.n ∧ ((middle M k).x - c.x) ^ 2 + ((middle M k).y - c.y) ^ 2 < r ^ 2
  | .polygon P, k => k < M.n ∧ Within P (middle M k)

/-- The place is within the boundary polygon, as far as tested: centre and 100 points of the circle, or corners of the polygon. -/
def Place.Tested (bounding : List (Pt ℝ)) : Place → Prop
  | .everywhere => 0 < Polygon.polygonArea bounding
  | .circle c r => Within bounding c ∧
      ∀ i : ℕ, i < 100 → Within bounding ⟨c.x + r * Real.cos (2 * Real.pi * i / 100), c.y + r * Real.sin (2 * Real.pi * i / 100)⟩
  | .polygon P => ∀ p ∈ P, Within bounding p

open Classical in
/-- The triangles of the place. -/
noncomputable def Place.tris (M : Loop.Mesh ℝ) (A : Place) : Finset ℕ := (Finset.range M.n).filter (A.Has M)

open Classical in
/-- `u'` is `u` with `x` added on the triangles of the place. -/
def Raised (M : Loop.Mesh ℝ) (A : Place) (u u' : List ℝ) (x : ℝ) : Prop :=
  u'.length = u.length ∧ ∀ k, (h : k < u.length) → (h' : k < u'.length) → u'[k] = u[k] + if A.Has M k then x else 0

/-- Volume per time that the change of the update vector stands for. -/
noncomputable def volume (M : Loop.Mesh ℝ) (u u' : List ℝ) : ℝ := ∑ k ∈ Finset.range M.n, size M k * (u'.getD k 0 - u.getD k 0)

/-- Calls one after the other, at the given times, each for a new update vector; the warnings. Stops at an error. -/
noncomputable def Term.calls (T : Term) : List (ℝ × List ℝ) → List Bool
  | [] => []
  | (t, u) :: rest =>
    match T.call t u with
    | .error _ => []
    | .ok (_, T', w) => w :: T'.calls rest

end Verif.Forcing
