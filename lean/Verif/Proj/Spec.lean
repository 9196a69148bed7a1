import Verif.Proj.Model
import Mathlib.Analysis.Calculus.Deriv.Basic

/-! What a transverse Mercator projection is, in terms of series. -/

namespace Verif.Proj

/-- With relative longitude `w` and isometric latitude `q` (so that `dq = dphi / g phi`), a projection with eastings `a 1 w + a 3 w^3 + ...` and northings
`a 0 + a 2 w^2 + a 4 w^4 + ...` is conformal (the equations of Cauchy and Riemann hold) if and only if each coefficient follows from the one before it by
differentiation along the meridian: `(k+1) a (k+1) = (-1)^k da(k)/dq`. Here up to `a (n+1)`, away from the poles. -/
def Conformal (g : ℝ → ℝ) (n : ℕ) (a : ℕ → ℝ → ℝ) : Prop :=
  ∀ k, 1 ≤ k → k ≤ n → ∀ phi, Real.cos phi ≠ 0 → HasDerivAt (a k) ((-1) ^ k * ((k + 1) * a (k + 1) phi) / g phi) phi

/-- A function is the distance along the meridian from the equator. -/
def IsMeridianArc (m : ℝ → ℝ) (curvature : ℝ → ℝ) : Prop := m 0 = 0 ∧ ∀ phi, HasDerivAt m (curvature phi) phi

end Verif.Proj
