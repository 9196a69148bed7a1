import Verif.Polygon.Model

/-! # Vocabulary for the polygon properties (plane geometry only) -/

namespace Verif.Polygon

variable {K : Type*} [Field K] [LinearOrder K]

/-- `sq` computes square roots of non-negative numbers. -/
def IsSqrt (sq : K → K) : Prop := ∀ x, 0 ≤ x → 0 ≤ sq x ∧ sq x * sq x = x

/-- `p` lies on the closed segment from `a` to `b`. -/
def OnSeg (p a b : Pt K) : Prop :=
  ∃ t, 0 ≤ t ∧ t ≤ 1 ∧ p.x = a.x + t * (b.x - a.x) ∧ p.y = a.y + t * (b.y - a.y)

/-- `p` is at distance at most `r` from the segment. -/
def Near (r : K) (p a b : Pt K) : Prop :=
  ∃ q, OnSeg q a b ∧ (p.x - q.x) * (p.x - q.x) + (p.y - q.y) * (p.y - q.y) ≤ r * r

/-- Width of the strip around segments inside which floating point safety margins of the code may act: `2e-15`. -/
def margin : K := 2 / 10 ^ 15

/-- The three points lie on a line. -/
def Flat (a b c : Pt K) : Prop := (b.x - a.x) * (c.y - a.y) = (b.y - a.y) * (c.x - a.x)

/-- `p` is in the interior of the (proper) triangle `a b c`: a convex combination with positive weights. -/
def InTri (p a b c : Pt K) : Prop :=
  ¬ Flat a b c ∧ ∃ u v w, 0 < u ∧ 0 < v ∧ 0 < w ∧ u + v + w = 1 ∧
    p.x = u * a.x + v * b.x + w * c.x ∧ p.y = u * a.y + v * b.y + w * c.y

/-- Sides of a polygon, including the one from the last vertex back to the first. -/
def Side (poly : List (Pt K)) (a b : Pt K) : Prop :=
  ∃ i, ∃ h : i < poly.length, a = poly[i] ∧ b = poly[(i + 1) % poly.length]'(Nat.mod_lt _ (by omega))

/-- Translation. -/
def shift (d : Pt K) (p : Pt K) : Pt K := ⟨p.x + d.x, p.y + d.y⟩

/-- Linear map with matrix `((a, b), (c, d))`. -/
def lin (a b c d : K) (p : Pt K) : Pt K := ⟨a * p.x + b * p.y, c * p.x + d * p.y⟩

/-- Vertex number `i`, counted cyclically. -/
def vert (poly : List (Pt K)) (i : ℕ) (h : 0 < poly.length) : Pt K := poly[i % poly.length]'(Nat.mod_lt _ h)

/-- Twice the area of the triangle `q a b`, positive if these are listed counterclockwise. -/
def twoTri (q a b : Pt K) : K := (a.x - q.x) * (b.y - q.y) - (a.y - q.y) * (b.x - q.x)

/-- Signed area as seen from `q`: the sum over the sides of the signed areas of the triangles with apex `q`. -/
def seenFrom (q : Pt K) (poly : List (Pt K)) : K :=
  (∑ i : Fin poly.length, twoTri q (vert poly i i.pos) (vert poly (i.val + 1) i.pos)) / 2

end Verif.Polygon
