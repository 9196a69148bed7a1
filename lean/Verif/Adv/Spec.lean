import Verif.Adv.Model

/-!
# What the user expects of transport with constant velocity
-/

namespace Verif.Adv

open Verif.Geom

variable {n b : ℕ}

/-- The cells carry the geometry of anticlockwise triangles; triangles that are neighbours share an
edge. -/
structure Valid (D : Dom n b) (inscribed : Bool) : Prop where
  ccw : ∀ k, CCW (D.cell k).corner
  geom : ∀ k, D.cell k = cell inscribed (D.cell k).corner
  back : ∀ {k e k' e'}, D.nb k e = .tri k' e' → D.nb k' e' = .tri k e
  shared : ∀ {k e k' e'}, D.nb k e = .tri k' e' → tail (D.cell k).corner e = head (D.cell k').corner e' ∧
    head (D.cell k).corner e = tail (D.cell k').corner e'

/-- Everything in the triangles. -/
noncomputable def mass (D : Dom n b) (q : Fin n → ℝ) : ℝ := ∑ k, area (D.cell k).corner * q k

/-- What leaves through the boundary per unit of time: the velocity across each boundary edge, times its length, times the value on the side it comes
from. -/
noncomputable def outflow (D : Dom n b) (bdry : Fin b → ℝ) (q : Fin n → ℝ) : ℝ :=
  ∑ k, ∑ e, match D.nb k e with
    | .tri _ _ => 0
    | .bdry m => Geom.dist (tail (D.cell k).corner e) (head (D.cell k).corner e) *
        (max (dot D.velocity (normal (D.cell k).corner e)) 0 * q k + min (dot D.velocity (normal (D.cell k).corner e)) 0 * bdry m)

/-- Boundary values stay between `lo` and `hi` as long as the values inside do. -/
def Keeps (B : Boundary n b) (lo hi : ℝ) : Prop := ∀ s q, (∀ k, lo ≤ q k ∧ q k ≤ hi) → ∀ m, lo ≤ B s q m ∧ B s q m ≤ hi

end Verif.Adv
