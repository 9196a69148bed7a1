import Verif.Region.Model

/-!
# Specification for regions: convex combinations
-/

namespace Verif.Region

open Verif.Polygon

variable {K : Type*} [Field K] [LinearOrder K]

/-- The point is a convex combination of the corners, that is, it lies in the closed triangle. -/
def Tri.Has (t : Tri K) (p : Pt K) : Prop :=
  ∃ u v w : K, 0 ≤ u ∧ 0 ≤ v ∧ 0 ≤ w ∧ u + v + w = 1 ∧
    p.x = u * t.a.x + v * t.b.x + w * t.c.x ∧ p.y = u * t.a.y + v * t.b.y + w * t.c.y

/-- The point lies on the closed segment from `p0` to `p1`. -/
def OnSegment (p0 p1 p : Pt K) : Prop :=
  ∃ s : K, 0 ≤ s ∧ s ≤ 1 ∧ p.x = (1 - s) * p0.x + s * p1.x ∧ p.y = (1 - s) * p0.y + s * p1.y

/-- Some point lies on the segment and in the triangle. -/
def Meets (p0 p1 : Pt K) (t : Tri K) : Prop := ∃ p, OnSegment p0 p1 p ∧ t.Has p

/-- Twice the signed area. -/
def Tri.det (t : Tri K) : K := (t.b.x - t.a.x) * (t.c.y - t.a.y) - (t.c.x - t.a.x) * (t.b.y - t.a.y)

end Verif.Region
