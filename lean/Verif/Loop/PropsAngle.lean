import Verif.Loop.Props
import Mathlib.Analysis.SpecialFunctions.Trigonometric.Inverse

/-!
# Angles between vectors

`/repo/anuga/utilities/numerical_tools.py` 60-96 (`angle`), 118-124 (`normal_vector`), over the reals; the protection of the arc cosine against rounding
is left out.
-/

namespace Verif.Loop

open Verif.Polygon (Pt)

/-- Unit vector, 77-78. -/
noncomputable def unit (v : Pt ℝ) : Pt ℝ := ⟨v.x / √(v.x ^ 2 + v.y ^ 2), v.y / √(v.x ^ 2 + v.y ^ 2)⟩

/-- `angle(v1, v2)`, 60-96. -/
noncomputable def angle (v1 v2 : Pt ℝ) : ℝ :=
  let u1 := unit v1
  let u2 := unit v2
  let p := u1.x * u2.x + u1.y * u2.y
  let c := u1.x * -u2.y + u1.y * u2.x
  if c < 0 then 2 * Real.pi - Real.arccos p else Real.arccos p

theorem unit_norm {v : Pt ℝ} (h : v ≠ ⟨0, 0⟩) : (unit v).x ^ 2 + (unit v).y ^ 2 = 1 := by
  have hp : 0 < v.x ^ 2 + v.y ^ 2 := by
    by_contra hn
    have h1 := sq_nonneg v.x
    have h2 := sq_nonneg v.y
    have h3 : v.x ^ 2 = 0 := by linarith
    have h4 : v.y ^ 2 = 0 := by linarith
    apply h
    cases v
    simp at h3 h4
    simp [h3, h4]
  unfold unit
  simp only [div_pow, Real.sq_sqrt hp.le]
  rw [← add_div, div_self hp.ne']

/-- **C83.** The angle is in [0, 2π), and the first vector has the direction of the second one turned anticlockwise by it. -/
theorem C83_angle {v1 v2 : Pt ℝ} (h1 : v1 ≠ ⟨0, 0⟩) (h2 : v2 ≠ ⟨0, 0⟩) : 0 ≤ angle v1 v2 ∧ angle v1 v2 < 2 * Real.pi ∧
    (unit v1).x = Real.cos (angle v1 v2) * (unit v2).x - Real.sin (angle v1 v2) * (unit v2).y ∧
    (unit v1).y = Real.sin (angle v1 v2) * (unit v2).x + Real.cos (angle v1 v2) * (unit v2).y := by
  have n1 := unit_norm h1
  have n2 := unit_norm h2
  unfold angle
  simp only
  set a := (unit v1).x
  set b := (unit v1).y
  set c := (unit v2).x
  set d := (unit v2).y
  have hpc : (a * c + b * d) ^ 2 + (a * -d + b * c) ^ 2 = 1 := by
    have : (a * c + b * d) ^ 2 + (a * -d + b * c) ^ 2 = (a ^ 2 + b ^ 2) * (c ^ 2 + d ^ 2) := by ring
    rw [this, n1, n2, one_mul]
  have hle : (a * c + b * d) ≤ 1 := by nlinarith [sq_nonneg (a * -d + b * c)]
  have hge : -1 ≤ (a * c + b * d) := by nlinarith [sq_nonneg (a * -d + b * c)]
  have hcos := Real.cos_arccos hge hle
  have hsin : Real.sin (Real.arccos (a * c + b * d)) = |a * -d + b * c| := by
    rw [Real.sin_arccos, show 1 - (a * c + b * d) ^ 2 = (a * -d + b * c) ^ 2 by linarith, Real.sqrt_sq_eq_abs]
  have e1 : (a * c + b * d) * c - (a * -d + b * c) * d = a := by
    have : (a * c + b * d) * c - (a * -d + b * c) * d = a * (c ^ 2 + d ^ 2) := by ring
    rw [this, n2, mul_one]
  have e2 : (a * -d + b * c) * c + (a * c + b * d) * d = b := by
    have : (a * -d + b * c) * c + (a * c + b * d) * d = b * (c ^ 2 + d ^ 2) := by ring
    rw [this, n2, mul_one]
  have hpi := Real.pi_pos
  split_ifs with hc
  · have hpos : 0 < Real.arccos (a * c + b * d) := by
      rw [Real.arccos_pos]
      by_contra hn
      have : a * c + b * d = 1 := le_antisymm hle (not_lt.mp hn)
      rw [this] at hpc
      nlinarith
    have hup := Real.arccos_le_pi (a * c + b * d)
    refine ⟨by linarith, by linarith, ?_, ?_⟩
    · rw [Real.cos_two_pi_sub, Real.sin_two_pi_sub, hcos, hsin, abs_of_neg hc, neg_neg]
      exact e1.symm
    · rw [Real.cos_two_pi_sub, Real.sin_two_pi_sub, hcos, hsin, abs_of_neg hc, neg_neg]
      exact e2.symm
  · have hup := Real.arccos_le_pi (a * c + b * d)
    refine ⟨Real.arccos_nonneg _, by linarith, ?_, ?_⟩
    · rw [hcos, hsin, abs_of_nonneg (not_lt.mp hc)]
      exact e1.symm
    · rw [hcos, hsin, abs_of_nonneg (not_lt.mp hc)]
      exact e2.symm

end Verif.Loop
