import Verif.Proj.Model
import Mathlib.Analysis.Real.Pi.Bounds
import Mathlib.Analysis.SpecialFunctions.Trigonometric.Bounds
import Mathlib.Algebra.Order.Ring.Abs

/-! The series of Redfearn: factors and bounds. -/

namespace Verif.Proj

theorem e2_bounds : 0.0066 < e2 ∧ e2 < 0.0067 := by
  unfold e2 flat invFlat
  constructor <;> norm_num

theorem e2_pos : 0 < e2 := by have := e2_bounds.1; linarith

theorem w_bounds (s : ℝ) (hs : s ^ 2 ≤ 1) : 1 - e2 ≤ 1 - e2 * s * s ∧ 1 - e2 * s * s ≤ 1 := by
  have := e2_pos
  constructor
  · nlinarith [mul_nonneg this.le (sub_nonneg.mpr hs)]
  · nlinarith [mul_nonneg this.le (sq_nonneg s)]

theorem w_pos (s : ℝ) (hs : s ^ 2 ≤ 1) : 0 < 1 - e2 * s * s := by
  have := (w_bounds s hs).1
  have := e2_bounds.2
  linarith

theorem nu_pos (s : ℝ) (hs : s ^ 2 ≤ 1) : 0 < nu s := by
  unfold nu semiMajor
  have := Real.rpow_pos_of_pos (w_pos s hs) 0.5
  positivity

/-- The ratio of the radii is rational. -/
theorem psi_eq (s : ℝ) (hs : s ^ 2 ≤ 1) : nu s / rho s = (1 - e2 * s * s) / (1 - e2) := by
  have hw := w_pos s hs
  have h1 : (1 - e2 * s * s) ^ (1.5 : ℝ) = (1 - e2 * s * s) * (1 - e2 * s * s) ^ (0.5 : ℝ) := by
    rw [show (1.5 : ℝ) = 1 + 0.5 by norm_num, Real.rpow_add hw, Real.rpow_one]
  have h2 := Real.rpow_pos_of_pos hw 0.5
  have h3 : 0 < 1 - e2 := by have := e2_bounds.2; linarith
  unfold nu rho
  rw [h1]
  unfold semiMajor
  generalize (1 - e2 * s * s) ^ (0.5 : ℝ) = q at h2 ⊢
  generalize 1 - e2 * s * s = w at hw ⊢
  field_simp

theorem psi_bounds (s : ℝ) (hs : s ^ 2 ≤ 1) : 1 ≤ nu s / rho s ∧ nu s / rho s ≤ 1.01 := by
  rw [psi_eq s hs]
  have h3 : 0 < 1 - e2 := by have := e2_bounds.2; linarith
  have := w_bounds s hs
  have := e2_bounds.2
  constructor
  · rw [le_div_iff₀ h3]; linarith
  · rw [div_le_iff₀ h3]; linarith

theorem nu_le (s : ℝ) (hs : s ^ 2 ≤ 1) : semiMajor ≤ nu s ∧ nu s ≤ 6400000 := by
  have hw := w_pos s hs
  have hb := w_bounds s hs
  have e : (1 - e2 * s * s) ^ (0.5 : ℝ) = Real.sqrt (1 - e2 * s * s) := by rw [Real.sqrt_eq_rpow]; norm_num
  have hlo : 0.9966 ≤ Real.sqrt (1 - e2 * s * s) := by
    apply Real.le_sqrt_of_sq_le
    have := e2_bounds.2
    norm_num at this ⊢
    linarith [hb.1]
  have hhi : Real.sqrt (1 - e2 * s * s) ≤ 1 := by
    rw [Real.sqrt_le_left (by norm_num)]; linarith [hb.2]
  have hp : 0 < Real.sqrt (1 - e2 * s * s) := Real.sqrt_pos.mpr hw
  unfold nu
  rw [e]
  constructor
  · rw [le_div_iff₀ hp]; unfold semiMajor; nlinarith
  · rw [div_le_iff₀ hp]; unfold semiMajor; nlinarith

/-- Coefficients of the easting. -/
noncomputable def c3 (s c : ℝ) : ℝ := nu s / rho s * c ^ 2 - s ^ 2
noncomputable def c5 (s c : ℝ) : ℝ :=
  4 * (nu s / rho s) ^ 3 * (c ^ 4 - 6 * s ^ 2 * c ^ 2) + (nu s / rho s) ^ 2 * (c ^ 4 + 8 * s ^ 2 * c ^ 2) - 2 * (nu s / rho s) * (s ^ 2 * c ^ 2) + s ^ 4
noncomputable def c7 (s c : ℝ) : ℝ := 61 * c ^ 6 - 479 * s ^ 2 * c ^ 4 + 179 * s ^ 4 * c ^ 2 - s ^ 6

noncomputable def east (s c w : ℝ) : ℝ := w + c3 s c / 6 * w ^ 3 + c5 s c / 120 * w ^ 5 + c7 s c / 5040 * w ^ 7

theorem east_eq (phi w : ℝ) (hc : Real.cos phi ≠ 0) :
    eastSeries phi w = nu (Real.sin phi) * Real.cos phi * east (Real.sin phi) (Real.cos phi) w := by
  unfold eastSeries east c3 c5 c7
  simp only [Real.tan_eq_sin_div_cos]
  generalize nu (Real.sin phi) / rho (Real.sin phi) = psi
  generalize nu (Real.sin phi) = n
  generalize Real.sin phi = s at *
  generalize Real.cos phi = c at *
  field_simp

theorem coeff_bounds (s c : ℝ) (h : s ^ 2 + c ^ 2 = 1) : |c3 s c| ≤ 3 ∧ |c5 s c| ≤ 60 ∧ |c7 s c| ≤ 720 := by
  have hs : s ^ 2 ≤ 1 := by nlinarith [sq_nonneg c]
  obtain ⟨p1, p2⟩ := psi_bounds s hs
  unfold c3 c5 c7
  generalize nu s / rho s = psi at *
  have hu : 0 ≤ s ^ 2 := sq_nonneg s
  have hv : 0 ≤ c ^ 2 := sq_nonneg c
  obtain ⟨u, hu'⟩ : ∃ u, u = s ^ 2 := ⟨_, rfl⟩
  obtain ⟨v, hv'⟩ : ∃ v, v = c ^ 2 := ⟨_, rfl⟩
  have e1 : s ^ 4 = u * u := by rw [hu']; ring
  have e2 : c ^ 4 = v * v := by rw [hv']; ring
  have e3 : s ^ 6 = u * u * u := by rw [hu']; ring
  have e4 : c ^ 6 = v * v * v := by rw [hv']; ring
  rw [e1, e2, e3, e4, ← hu', ← hv']
  rw [← hu'] at hu hs
  rw [← hv'] at hv
  have huv : u + v = 1 := by rw [hu', hv']; exact h
  have hu1 : u ≤ 1 := by linarith
  have hv1 : v ≤ 1 := by linarith
  have huu : 0 ≤ u * u ∧ u * u ≤ 1 := ⟨by positivity, by nlinarith⟩
  have hvv : 0 ≤ v * v ∧ v * v ≤ 1 := ⟨by positivity, by nlinarith⟩
  have huv' : 0 ≤ u * v ∧ u * v ≤ 1 := ⟨by positivity, by nlinarith⟩
  have hp2 : 1 ≤ psi ^ 2 ∧ psi ^ 2 ≤ 1.03 := ⟨by nlinarith, by nlinarith⟩
  have hp3 : 1 ≤ psi ^ 3 ∧ psi ^ 3 ≤ 1.05 := by
    rw [show psi ^ 3 = psi ^ 2 * psi by ring]
    exact ⟨by nlinarith, by nlinarith⟩
  refine ⟨abs_le.mpr ⟨by nlinarith, by nlinarith⟩, ?_, ?_⟩
  · have q1 : |v * v - 6 * u * v| ≤ 7 := abs_le.mpr ⟨by linarith [hvv.1, huv'.2], by linarith [hvv.2, huv'.1]⟩
    have q2 : |v * v + 8 * u * v| ≤ 9 := abs_le.mpr ⟨by linarith [hvv.1, huv'.1], by linarith [hvv.2, huv'.2]⟩
    have r1 : |4 * psi ^ 3 * (v * v - 6 * u * v)| ≤ 4 * 1.05 * 7 := by
      rw [abs_mul, abs_of_nonneg (show 0 ≤ 4 * psi ^ 3 by linarith [hp3.1])]
      exact mul_le_mul (by linarith [hp3.2]) q1 (abs_nonneg _) (by norm_num)
    have r2 : |psi ^ 2 * (v * v + 8 * u * v)| ≤ 1.03 * 9 := by
      rw [abs_mul, abs_of_nonneg (show 0 ≤ psi ^ 2 by linarith [hp2.1])]
      exact mul_le_mul hp2.2 q2 (abs_nonneg _) (by norm_num)
    have r3 : |2 * psi * (u * v)| ≤ 2 * 1.01 * 1 := by
      rw [abs_mul, abs_of_nonneg (show 0 ≤ 2 * psi by linarith)]
      exact mul_le_mul (by linarith) (abs_le.mpr ⟨by linarith [huv'.1], huv'.2⟩) (abs_nonneg _) (by norm_num)
    have a1 := abs_le.mp r1
    have a2 := abs_le.mp r2
    have a3 := abs_le.mp r3
    rw [abs_le]
    constructor <;> linarith [huu.1, huu.2]
  · have g1 : 0 ≤ v * v * v ∧ v * v * v ≤ 1 := ⟨by positivity, by nlinarith [mul_le_mul hvv.2 hv1 hv (by norm_num)]⟩
    have g2 : 0 ≤ u * (v * v) ∧ u * (v * v) ≤ 1 := ⟨by positivity, by nlinarith [mul_le_mul hu1 hvv.2 hvv.1 (by norm_num)]⟩
    have g3 : 0 ≤ u * u * v ∧ u * u * v ≤ 1 := ⟨by positivity, by nlinarith [mul_le_mul huu.2 hv1 hv (by norm_num)]⟩
    have g4 : 0 ≤ u * u * u ∧ u * u * u ≤ 1 := ⟨by positivity, by nlinarith [mul_le_mul huu.2 hu1 hu (by norm_num)]⟩
    rw [abs_le]
    constructor <;> nlinarith [g1.1, g1.2, g2.1, g2.2, g3.1, g3.2, g4.1, g4.2]

theorem pow_diff (x y w : ℝ) (hx : |x| ≤ w) (hy : |y| ≤ w) (n : ℕ) : |y ^ n - x ^ n| ≤ |y - x| * n * w ^ (n - 1) := by
  refine (abs_pow_sub_pow_le y x n).trans ?_
  exact mul_le_mul_of_nonneg_left (pow_le_pow_left₀ (le_max_of_le_left (abs_nonneg _)) (max_le hy hx) _) (by positivity)

/-- Half a zone in radians. -/
theorem half_zone : 3 * Real.pi / 180 ≤ 0.06 := by
  have := Real.pi_lt_d4
  linarith

theorem east_lt (s c : ℝ) (h : s ^ 2 + c ^ 2 = 1) (x y : ℝ) (hx : |x| ≤ 0.06) (hy : |y| ≤ 0.06) (hxy : x < y) : east s c x < east s c y := by
  obtain ⟨b3, b5, b7⟩ := coeff_bounds s c h
  have d3 := pow_diff x y 0.06 hx hy 3
  have d5 := pow_diff x y 0.06 hx hy 5
  have d7 := pow_diff x y 0.06 hx hy 7
  have hd : 0 < y - x := by linarith
  rw [abs_of_pos hd] at d3 d5 d7
  have m3 : |c3 s c / 6 * (y ^ 3 - x ^ 3)| ≤ 3 / 6 * ((y - x) * (3 : ℕ) * 0.06 ^ (3 - 1)) := by
    rw [abs_mul, abs_div, abs_of_pos (show (0 : ℝ) < 6 by norm_num)]
    exact mul_le_mul (by linarith) d3 (abs_nonneg _) (by norm_num)
  have m5 : |c5 s c / 120 * (y ^ 5 - x ^ 5)| ≤ 60 / 120 * ((y - x) * (5 : ℕ) * 0.06 ^ (5 - 1)) := by
    rw [abs_mul, abs_div, abs_of_pos (show (0 : ℝ) < 120 by norm_num)]
    exact mul_le_mul (by linarith) d5 (abs_nonneg _) (by norm_num)
  have m7 : |c7 s c / 5040 * (y ^ 7 - x ^ 7)| ≤ 720 / 5040 * ((y - x) * (7 : ℕ) * 0.06 ^ (7 - 1)) := by
    rw [abs_mul, abs_div, abs_of_pos (show (0 : ℝ) < 5040 by norm_num)]
    exact mul_le_mul (by linarith) d7 (abs_nonneg _) (by norm_num)
  have n3 := (abs_le.mp m3).1
  have n5 := (abs_le.mp m5).1
  have n7 := (abs_le.mp m7).1
  norm_num at n3 n5 n7
  unfold east
  nlinarith

theorem east_abs (s c : ℝ) (h : s ^ 2 + c ^ 2 = 1) (x : ℝ) (hx : |x| ≤ 0.06) : |east s c x| ≤ 1.01 * |x| := by
  obtain ⟨b3, b5, b7⟩ := coeff_bounds s c h
  have h0 := abs_nonneg x
  have p2 : |x| ^ 2 ≤ 0.0036 := by nlinarith
  have p4 : |x| ^ 4 ≤ 0.0036 := by nlinarith [sq_nonneg (|x| ^ 2), pow_nonneg h0 2]
  have p6 : |x| ^ 6 ≤ 0.0036 := by nlinarith [pow_nonneg h0 2, pow_nonneg h0 4]
  have m3 : |c3 s c / 6 * x ^ 3| ≤ 3 / 6 * (|x| ^ 3) := by
    rw [abs_mul, abs_div, abs_of_pos (show (0 : ℝ) < 6 by norm_num), abs_pow]
    exact mul_le_mul_of_nonneg_right (by linarith) (by positivity)
  have m5 : |c5 s c / 120 * x ^ 5| ≤ 60 / 120 * (|x| ^ 5) := by
    rw [abs_mul, abs_div, abs_of_pos (show (0 : ℝ) < 120 by norm_num), abs_pow]
    exact mul_le_mul_of_nonneg_right (by linarith) (by positivity)
  have m7 : |c7 s c / 5040 * x ^ 7| ≤ 720 / 5040 * (|x| ^ 7) := by
    rw [abs_mul, abs_div, abs_of_pos (show (0 : ℝ) < 5040 by norm_num), abs_pow]
    exact mul_le_mul_of_nonneg_right (by linarith) (by positivity)
  have q3 : |x| ^ 3 ≤ 0.0036 * |x| := by rw [pow_succ]; exact mul_le_mul_of_nonneg_right p2 h0
  have q5 : |x| ^ 5 ≤ 0.0036 * |x| := by rw [pow_succ]; exact mul_le_mul_of_nonneg_right p4 h0
  have q7 : |x| ^ 7 ≤ 0.0036 * |x| := by rw [pow_succ]; exact mul_le_mul_of_nonneg_right p6 h0
  unfold east
  refine (abs_add_le _ _).trans ?_
  refine (add_le_add ((abs_add_le _ _).trans (add_le_add (abs_add_le _ _) m5)) m7).trans ?_
  linarith

theorem meridian_odd (phi : ℝ) : meridian (-phi) = -meridian phi := by
  unfold meridian
  rw [mul_neg, mul_neg, mul_neg, mul_neg, Real.sin_neg, Real.sin_neg, Real.sin_neg]
  ring

theorem meridian_lt (x y : ℝ) (h : x < y) : meridian x < meridian y := by
  have hd : 0 < y - x := by linarith
  obtain ⟨e1, e2'⟩ := e2_bounds
  have he := e2_pos
  have h4 : 0 ≤ e4 ∧ e4 ≤ 0.0001 := by unfold e4; constructor <;> nlinarith
  have h6 : 0 ≤ e6 ∧ e6 ≤ 0.0001 := by unfold e6; constructor <;> nlinarith [h4.1, h4.2]
  have s2 := (abs_le.mp (Real.abs_sin_sub_sin_le (2 * y) (2 * x)))
  have s4 := (abs_le.mp (Real.abs_sin_sub_sin_le (4 * y) (4 * x)))
  have s6 := (abs_le.mp (Real.abs_sin_sub_sin_le (6 * y) (6 * x)))
  rw [show 2 * y - 2 * x = 2 * (y - x) by ring, abs_of_pos (by linarith)] at s2
  rw [show 4 * y - 4 * x = 4 * (y - x) by ring, abs_of_pos (by linarith)] at s4
  rw [show 6 * y - 6 * x = 6 * (y - x) by ring, abs_of_pos (by linarith)] at s6
  have a0 : 0.99 ≤ A0 := by unfold A0; linarith
  have a2 : 0 ≤ A2 ∧ A2 ≤ 0.01 := by unfold A2; constructor <;> linarith
  have a4 : 0 ≤ A4 ∧ A4 ≤ 0.01 := by unfold A4; constructor <;> linarith
  have a6 : 0 ≤ A6 ∧ A6 ≤ 0.01 := by unfold A6; constructor <;> linarith
  have t0 : 0.99 * (y - x) ≤ A0 * (y - x) := mul_le_mul_of_nonneg_right a0 hd.le
  have t2 : A2 * (Real.sin (2 * y) - Real.sin (2 * x)) ≤ 0.01 * (2 * (y - x)) :=
    (mul_le_mul_of_nonneg_left s2.2 a2.1).trans (mul_le_mul_of_nonneg_right a2.2 (by linarith))
  have t4 : -(0.01 * (4 * (y - x))) ≤ A4 * (Real.sin (4 * y) - Real.sin (4 * x)) := by
    have := mul_le_mul_of_nonneg_left s4.1 a4.1
    have := mul_le_mul_of_nonneg_right a4.2 (show 0 ≤ 4 * (y - x) by linarith)
    linarith
  have t6 : A6 * (Real.sin (6 * y) - Real.sin (6 * x)) ≤ 0.01 * (6 * (y - x)) :=
    (mul_le_mul_of_nonneg_left s6.2 a6.1).trans (mul_le_mul_of_nonneg_right a6.2 (by linarith))
  unfold meridian semiMajor
  nlinarith

theorem trunc_nonneg (x : ℝ) (h : 0 ≤ x) : trunc x = ⌊x⌋ := by unfold trunc; rw [if_pos h]

theorem trunc_neg (x : ℝ) (h : x < 0) : trunc x = ⌈x⌉ := by unfold trunc; rw [if_neg (not_le.mpr h)]

end Verif.Proj
