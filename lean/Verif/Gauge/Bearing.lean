import Verif.Tools.Angle
import Mathlib.Analysis.SpecialFunctions.Trigonometric.Basic

/-! # Model of `calc_bearing`, `/repo/anuga/abstract_2d_finite_volumes/util.py` 156-171, over the reals -/

namespace Verif.Gauge

open Real

/-- `calc_bearing(uh, vh)`; `none` is `NAN`. -/
noncomputable def calcBearing (eps uh vh : ℝ) : Option ℝ :=
  if uh = 0 ∧ vh = 0 then none else (Verif.Tools.angle eps (uh, vh) (0, -1)).map fun t => t * 180 / π

end Verif.Gauge
