import Verif.Forcing.ModelWind

/-!
# What wind, pressure and series are meant to do
-/

namespace Verif.Forcing

open Verif.Polygon (Pt)

/-- Wind of speed `s` towards the direction `phi` in degrees, counted from the x axis anticlockwise. -/
noncomputable def velocity (s phi : ℝ) : ℝ × ℝ := (s * Real.cos (phi * Real.pi / 180), s * Real.sin (phi * Real.pi / 180))

/-- `u'` is `u` with `d k` added to entry `k`. -/
def Added (d : ℕ → ℝ) (u u' : List ℝ) : Prop := u'.length = u.length ∧ ∀ k, (h : k < u.length) → (h' : k < u'.length) → u'[k] = u[k] + d k

/-- `v` is the value at time `t` of the piecewise linear function through the values of `f` at the times of the list. -/
def Linear (ft : List ℝ) (f : ℝ → ℝ) (t v : ℝ) : Prop :=
  ∃ j, ∃ h : j + 1 < ft.length, ft[j] ≤ t ∧ t ≤ ft[j + 1] ∧ (v - f ft[j]) * (ft[j + 1] - ft[j]) = (t - ft[j]) * (f ft[j + 1] - f ft[j])

end Verif.Forcing
