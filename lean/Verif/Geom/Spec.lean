import Verif.Geom.Model

/-!
# Plane geometry

Edge `e` of a triangle lies opposite corner `e` and runs from corner `e + 1` to corner `e + 2` (modulo 3).
-/

namespace Verif.Geom

/-- Twice the signed area of the triangle `a b c`. -/
def cross (a b c : ℝ × ℝ) : ℝ := (b.1 - a.1) * (c.2 - a.2) - (b.2 - a.2) * (c.1 - a.1)

/-- Corners run anticlockwise. -/
def CCW (V : Tri) : Prop := 0 < cross (V 0) (V 1) (V 2)

def dot (a b : ℝ × ℝ) : ℝ := a.1 * b.1 + a.2 * b.2

noncomputable def dist (a b : ℝ × ℝ) : ℝ := √((a.1 - b.1) ^ 2 + (a.2 - b.2) ^ 2)

/-- First and second end of an edge. -/
def tail (V : Tri) (e : Fin 3) : ℝ × ℝ := V (e + 1)
def head (V : Tri) (e : Fin 3) : ℝ × ℝ := V (e + 2)

/-- Distance of a point from the line of an edge, positive on the side of the triangle. -/
noncomputable def height (V : Tri) (e : Fin 3) (p : ℝ × ℝ) : ℝ := cross (tail V e) (head V e) p / dist (tail V e) (head V e)

/-- Interior of the triangle. -/
def Inside (V : Tri) (p : ℝ × ℝ) : Prop := ∀ e, 0 < height V e p

end Verif.Geom
