import Verif.Loop.Model
import Verif.Polygon.Spec
import Mathlib.Logic.Relation

/-! # Vocabulary for boundary polygons -/

namespace Verif.Loop

open Verif.Polygon (Pt)

variable {K : Type*} [Field K] [LinearOrder K]

/-- Edge `i` of triangle `k`, opposite to corner `i`, runs from `p` to `q` with the triangle on its left if corners are anticlockwise. -/
def Mesh.Side (M : Mesh K) (k i : ℕ) (p q : Pt K) : Prop := p = M.corner k ((i + 1) % 3) ∧ q = M.corner k ((i + 2) % 3)

/-- A boundary edge runs from `p` to `q`. -/
def Mesh.Bd (M : Mesh K) (p q : Pt K) : Prop := ∃ k i, (k, i) ∈ M.boundary ∧ M.Side k i p q

/-- Every edge of a triangle which is not in the list of boundary edges is an edge of one other triangle in the opposite direction. -/
structure Mesh.Valid (M : Mesh K) : Prop where
  range : ∀ k i, (k, i) ∈ M.boundary → k < M.n ∧ i < 3
  nodup : M.boundary.Nodup
  inner : ∃ mate : ℕ × ℕ → ℕ × ℕ, ∀ k i, k < M.n → i < 3 → (k, i) ∉ M.boundary →
    (mate (k, i)).1 < M.n ∧ (mate (k, i)).2 < 3 ∧ mate (k, i) ∉ M.boundary ∧ mate (mate (k, i)) = (k, i) ∧
      ∀ p q, M.Side k i p q → M.Side (mate (k, i)).1 (mate (k, i)).2 q p

/-- No point is the start of two boundary edges. -/
def Mesh.Simple (M : Mesh K) : Prop :=
  ∀ k i k' i' p q q', (k, i) ∈ M.boundary → (k', i') ∈ M.boundary → M.Side k i p q → M.Side k' i' p q' → (k, i) = (k', i')

/-- Corners are anticlockwise. -/
def Mesh.Ccw (M : Mesh K) : Prop := ∀ k < M.n, 0 < Polygon.twoTri (M.corner k 0) (M.corner k 1) (M.corner k 2)

/-- Total area of the triangles. -/
def Mesh.area (M : Mesh K) : K := ∑ k ∈ Finset.range M.n, Polygon.twoTri (M.corner k 0) (M.corner k 1) (M.corner k 2) / 2

/-- The boundary is one loop: from every boundary edge there is a way along boundary edges to every other. -/
def Mesh.OneLoop (M : Mesh K) : Prop := ∀ p q p' q', M.Bd p q → M.Bd p' q' → Relation.ReflTransGen M.Bd p p'

/-- The lower left corner of the extent. -/
def Mesh.Low (M : Mesh K) (c : Pt K) : Prop :=
  (∀ k < M.n, ∀ j < 3, c.x ≤ (M.corner k j).x ∧ c.y ≤ (M.corner k j).y) ∧
  (∃ k < M.n, ∃ j < 3, c.x = (M.corner k j).x) ∧ ∃ k < M.n, ∃ j < 3, c.y = (M.corner k j).y

/-- Each corner of the polygon is joined to the next one, and the last to the first. -/
def Closed (R : Pt K → Pt K → Prop) (P : List (Pt K)) : Prop := ∀ j, (h : j < P.length) → R P[j] (P[(j + 1) % P.length]'(Nat.mod_lt _ (by omega)))

end Verif.Loop
