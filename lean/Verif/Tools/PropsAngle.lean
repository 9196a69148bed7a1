import Verif.Tools.Angle
import Mathlib.Tactic.LinearCombination

/-! C58: angles between vectors. -/

namespace Verif.Tools

open Real

/-- Length of a plane vector. -/
noncomputable def len (v : ℝ × ℝ) : ℝ := sqrt (v.1 ^ 2 + v.2 ^ 2)

/-- The vector turned counter-clockwise by `t`. -/
noncomputable def turn (t : ℝ) (v : ℝ × ℝ) : ℝ × ℝ :=
  (cos t * v.1 - sin t * v.2, sin t * v.1 + cos t * v.2)

theorem sq_pos_of_ne (v : ℝ × ℝ) (h : v ≠ 0) : 0 < v.1 ^ 2 + v.2 ^ 2 := by
  have : v.1 ≠ 0 ∨ v.2 ≠ 0 := by
    by_contra hc
    push Not at hc
    exact h (Prod.ext hc.1 hc.2)
  rcases this with h | h <;> positivity

theorem normalise_eq (v : ℝ × ℝ) (h : v ≠ 0) :
    normalise v = some (v.1 / len v, v.2 / len v) := by
  unfold normalise len
  rw [if_neg (sq_pos_of_ne v h).ne']

theorem len_pos (v : ℝ × ℝ) (h : v ≠ 0) : 0 < len v := sqrt_pos.2 (sq_pos_of_ne v h)

theorem len_sq (v : ℝ × ℝ) : len v ^ 2 = v.1 ^ 2 + v.2 ^ 2 := sq_sqrt (by positivity)

/-- Cosine and sine of the computed angle. -/
theorem angle_spec (eps : ℝ) (v1 v2 : ℝ × ℝ) (h1 : v1 ≠ 0) (h2 : v2 ≠ 0) :
    ∃ t, angle eps v1 v2 = some t ∧ 0 ≤ t ∧ t < 2 * π ∧
      cos t = (v1.1 * v2.1 + v1.2 * v2.2) / (len v1 * len v2) ∧
      sin t = (v2.1 * v1.2 - v2.2 * v1.1) / (len v1 * len v2) := by
  have l1 := len_pos v1 h1
  have l2 := len_pos v2 h2
  unfold angle
  rw [normalise_eq v1 h1, normalise_eq v2 h2]
  simp only [Option.bind_eq_bind, Option.bind_some, Option.pure_def]
  generalize hp : inner2 (v1.1 / len v1, v1.2 / len v1) (v2.1 / len v2, v2.2 / len v2) = p
  generalize hc : inner2 (v1.1 / len v1, v1.2 / len v1)
    (normalVector (v2.1 / len v2, v2.2 / len v2)) = c
  have hp' : p = (v1.1 * v2.1 + v1.2 * v2.2) / (len v1 * len v2) := by
    rw [← hp, inner2]; field_simp
  have hc' : c = (v2.1 * v1.2 - v2.2 * v1.1) / (len v1 * len v2) := by
    rw [← hc, inner2, normalVector]; field_simp; ring
  have hone : p ^ 2 + c ^ 2 = 1 := by
    rw [hp', hc', div_pow, div_pow, ← add_div, mul_pow, len_sq, len_sq]
    rw [div_eq_one_iff_eq (mul_pos (sq_pos_of_ne v1 h1) (sq_pos_of_ne v2 h2)).ne']
    ring
  have hple : p ≤ 1 := by nlinarith [sq_nonneg c, sq_nonneg (p - 1)]
  have hpge : -1 ≤ p := by nlinarith [sq_nonneg c, sq_nonneg (p + 1)]
  have hacos : safeAcos eps p = some (arccos p) := by
    unfold safeAcos
    rw [if_neg (not_lt.2 hpge), if_neg (not_lt.2 hple)]
  rw [hacos]
  simp only [Option.bind_some, Option.some.injEq]
  refine ⟨_, rfl, ?_⟩
  rw [← hp', ← hc']
  have hsin : sin (arccos p) = |c| := by
    rw [sin_arccos, ← sqrt_sq_eq_abs]
    congr 1
    linarith
  by_cases h : c < 0
  · rw [if_pos h]
    have hlt : 0 < arccos p := by
      rw [arccos_pos]
      rcases hple.lt_or_eq with h' | h'
      · exact h'
      · rw [h'] at hone
        have : c ^ 2 = 0 := by linarith
        exact absurd (pow_eq_zero_iff two_ne_zero |>.1 this) h.ne
    refine ⟨by linarith [arccos_le_pi p, pi_pos], by linarith, ?_, ?_⟩
    · rw [cos_two_pi_sub, cos_arccos hpge hple]
    · rw [sin_two_pi_sub, hsin, abs_of_neg h]; ring
  · rw [if_neg h]
    refine ⟨arccos_nonneg p, by linarith [arccos_le_pi p, pi_pos], cos_arccos hpge hple, ?_⟩
    rw [hsin, abs_of_nonneg (not_lt.1 h)]

/-- C58: the angle lies in `[0, 2π)` and turning the second vector by it gives the direction of the
first. -/
theorem C58_angle (eps : ℝ) (v1 v2 : ℝ × ℝ) (h1 : v1 ≠ 0) (h2 : v2 ≠ 0) :
    ∃ t, angle eps v1 v2 = some t ∧ 0 ≤ t ∧ t < 2 * π ∧
      (turn t v2).1 * len v1 = v1.1 * len v2 ∧ (turn t v2).2 * len v1 = v1.2 * len v2 := by
  obtain ⟨t, h, h0, hlt, hcos, hsin⟩ := angle_spec eps v1 v2 h1 h2
  have l1 := len_pos v1 h1
  have l2 := len_pos v2 h2
  refine ⟨t, h, h0, hlt, ?_, ?_⟩
  · unfold turn
    simp only
    rw [hcos, hsin]
    field_simp
    linear_combination (-v1.1) * len_sq v2
  · unfold turn
    simp only
    rw [hcos, hsin]
    field_simp
    linear_combination (-v1.2) * len_sq v2

/-- C58: the angle is determined by that: no other number of `[0, 2π)` turns the second vector into
the direction of the first. -/
theorem C58_angle_unique (eps : ℝ) (v1 v2 : ℝ × ℝ) (h1 : v1 ≠ 0) (h2 : v2 ≠ 0) (t : ℝ) (h0 : 0 ≤ t)
    (hlt : t < 2 * π) (hx : (turn t v2).1 * len v1 = v1.1 * len v2)
    (hy : (turn t v2).2 * len v1 = v1.2 * len v2) : angle eps v1 v2 = some t := by
  obtain ⟨s, hs, hs0, hslt, hcos, hsin⟩ := angle_spec eps v1 v2 h1 h2
  have l1 := len_pos v1 h1
  have l2 := len_pos v2 h2
  unfold turn at hx hy
  simp only at hx hy
  have hq : v2.1 ^ 2 + v2.2 ^ 2 = len v2 ^ 2 := (len_sq v2).symm
  have hct : cos t * (len v1 * len v2) = v1.1 * v2.1 + v1.2 * v2.2 := by
    apply mul_right_cancel₀ l2.ne'
    linear_combination v2.1 * hx + v2.2 * hy - cos t * len v1 * hq
  have hst : sin t * (len v1 * len v2) = v2.1 * v1.2 - v2.2 * v1.1 := by
    apply mul_right_cancel₀ l2.ne'
    linear_combination v2.1 * hy - v2.2 * hx - sin t * len v1 * hq
  have hl : len v1 * len v2 ≠ 0 := (mul_pos l1 l2).ne'
  have hc : cos t = cos s := by rw [hcos, eq_div_iff hl]; exact hct
  have hsn : sin t = sin s := by rw [hsin, eq_div_iff hl]; exact hst
  have hcd : cos (t - s) = 1 := by
    rw [cos_sub, hc, hsn]
    have := sin_sq_add_cos_sq s
    linarith
  obtain ⟨k, hk⟩ := (cos_eq_one_iff (t - s)).1 hcd
  have hk0 : k = 0 := by
    have hpi := pi_pos
    have h1 : (k : ℝ) * (2 * π) < 1 * (2 * π) := by rw [hk]; linarith
    have h2 : (-1 : ℝ) * (2 * π) < k * (2 * π) := by rw [hk]; linarith
    have h3 : (k : ℝ) < 1 := lt_of_mul_lt_mul_right h1 (by linarith)
    have h4 : (-1 : ℝ) < k := lt_of_mul_lt_mul_right h2 (by linarith)
    have h5 : k < 1 := by exact_mod_cast h3
    have h6 : -1 < k := by exact_mod_cast h4
    omega
  rw [hk0] at hk
  have : t = s := by simp at hk; linarith
  rw [this]; exact hs

/-- C58: the angle difference lies in `[0, 2π)` and turning the second vector by it gives the
direction of the first. -/
theorem C58_anglediff (eps : ℝ) (v0 v1 : ℝ × ℝ) (h0 : v0 ≠ 0) (h1 : v1 ≠ 0) :
    ∃ t, anglediff eps v0 v1 = some t ∧ 0 ≤ t ∧ t < 2 * π ∧
      (turn t v1).1 * len v0 = v0.1 * len v1 ∧ (turn t v1).2 * len v0 = v0.2 * len v1 := by
  have he : ((1 : ℝ), (0 : ℝ)) ≠ 0 := by simp [Prod.ext_iff]
  obtain ⟨a, ha, ha0, ha1, hac, has⟩ := angle_spec eps v0 (1, 0) h0 he
  obtain ⟨b, hb, hb0, hb1, hbc, hbs⟩ := angle_spec eps v1 (1, 0) h1 he
  have hle : len (1, 0) = 1 := by simp [len]
  simp only [hle, mul_one, mul_zero, add_zero, one_mul, zero_mul, sub_zero] at hac has hbc hbs
  have l0 := len_pos v0 h0
  have l1 := len_pos v1 h1
  have hcos : ∀ t, (t = a - b ∨ t = a + 2 * π - b) → cos t = cos a * cos b + sin a * sin b ∧
      sin t = sin a * cos b - cos a * sin b := by
    rintro t (rfl | rfl)
    · exact ⟨cos_sub a b, sin_sub a b⟩
    · rw [cos_sub, sin_sub, cos_add_two_pi, sin_add_two_pi]; exact ⟨rfl, rfl⟩
  unfold anglediff
  rw [ha, hb]
  simp only [Option.bind_eq_bind, Option.bind_some, Option.pure_def]
  refine ⟨_, rfl, ?_, ?_, ?_⟩
  · split_ifs with h
    · linarith
    · linarith [not_lt.1 h]
  · split_ifs with h
    · linarith
    · linarith
  · obtain ⟨hc, hs⟩ := hcos ((if a < b then a + 2 * π else a) - b) (by
      split_ifs
      · right; ring
      · left; rfl)
    unfold turn
    simp only
    rw [hc, hs, hac, has, hbc, hbs]
    constructor
    · field_simp
      linear_combination (-v0.1) * len_sq v1
    · field_simp
      linear_combination (-v0.2) * len_sq v1

/-- C58: a zero vector has no angle. -/
theorem C58_zero (eps : ℝ) (v : ℝ × ℝ) : angle eps 0 v = none ∧ angle eps v 0 = none := by
  have h0 : normalise 0 = none := by simp [normalise]
  constructor
  · simp [angle, h0]
  · unfold angle
    rw [h0]
    cases normalise v <;> rfl

/-- C58: `safe_acos` accepts exactly the numbers of `[-1 - eps, 1 + eps]`. -/
theorem C58_safe_acos (eps x : ℝ) (he : 0 ≤ eps) :
    ((-1 - eps ≤ x ∧ x ≤ 1 + eps) ↔ (safeAcos eps x).isSome) ∧
    ∀ t, safeAcos eps x = some t → 0 ≤ t ∧ t ≤ π ∧ |cos t - x| ≤ eps := by
  unfold safeAcos
  constructor
  · split_ifs with h1 h2 h3 h4
    · simp; intro; linarith
    · simp; constructor <;> linarith
    · simp; intro; linarith
    · simp; constructor <;> linarith
    · simp; constructor <;> linarith
  · intro t ht
    split_ifs at ht with h1 h2 h3 h4 <;> simp only [Option.some.injEq] at ht <;> subst ht <;>
      refine ⟨arccos_nonneg _, arccos_le_pi _, ?_⟩
    · rw [cos_arccos (by norm_num) (by norm_num), abs_le]; constructor <;> linarith
    · rw [cos_arccos (by norm_num) (by norm_num), abs_le]; constructor <;> linarith
    · rw [cos_arccos (not_lt.1 h1) (not_lt.1 h3)]; simpa using he

example : ((1 : ℝ), (1 : ℝ)) ≠ 0 ∧ ((0 : ℝ), (-2 : ℝ)) ≠ 0 := by simp [Prod.ext_iff]
example : (-1 - 1 / 10 : ℝ) ≤ 1.05 ∧ (1.05 : ℝ) ≤ 1 + 1 / 10 := by norm_num

end Verif.Tools
