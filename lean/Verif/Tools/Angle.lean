import Verif.Basic
import Mathlib.Analysis.SpecialFunctions.Trigonometric.Inverse

/-!
# Angles between plane vectors

Model of `/repo/anuga/utilities/numerical_tools.py` 21-45 (`safe_acos`), 60-96 (`angle`), 99-115
(`anglediff`), 118-123 (`normal_vector`) over the reals.  `none` stands for `nan` (a zero vector) or
an exception.
-/

namespace Verif.Tools

open Real

/-- `v / sqrt(sum(v**2))`, `numerical_tools.py` 77-78; `nan` for the zero vector. -/
noncomputable def normalise (v : ℝ × ℝ) : Option (ℝ × ℝ) :=
  if v.1 ^ 2 + v.2 ^ 2 = 0 then none
  else some (v.1 / sqrt (v.1 ^ 2 + v.2 ^ 2), v.2 / sqrt (v.1 ^ 2 + v.2 ^ 2))

/-- `normal_vector`, `numerical_tools.py` 118-123. -/
def normalVector (v : ℝ × ℝ) : ℝ × ℝ := (-v.2, v.1)

/-- `numpy.inner` of plane vectors. -/
def inner2 (v w : ℝ × ℝ) : ℝ := v.1 * w.1 + v.2 * w.2

/-- `safe_acos`, `numerical_tools.py` 21-45. -/
noncomputable def safeAcos (eps x : ℝ) : Option ℝ :=
  if x < -1 then (if x < -1 - eps then none else some (arccos (-1)))
  else if 1 < x then (if 1 + eps < x then none else some (arccos 1))
  else some (arccos x)

/-- `angle(v1, v2)`, `numerical_tools.py` 60-96. -/
noncomputable def angle (eps : ℝ) (v1 v2 : ℝ × ℝ) : Option ℝ := do
  let v1 ← normalise v1
  let v2 ← normalise v2
  let p := inner2 v1 v2
  let c := inner2 v1 (normalVector v2)
  let theta ← safeAcos eps p
  return if c < 0 then 2 * π - theta else theta

/-- `anglediff(v0, v1)`, `numerical_tools.py` 99-115. -/
noncomputable def anglediff (eps : ℝ) (v0 v1 : ℝ × ℝ) : Option ℝ := do
  let a0 ← angle eps v0 (1, 0)
  let a1 ← angle eps v1 (1, 0)
  return (if a0 < a1 then a0 + 2 * π else a0) - a1

end Verif.Tools
