import Verif.Proj.Lemmas
import Mathlib.Analysis.SpecialFunctions.Trigonometric.Deriv
import Mathlib.Analysis.SpecialFunctions.Trigonometric.ComplexDeriv
import Mathlib.Analysis.SpecialFunctions.Sqrt
import Mathlib.Analysis.Calculus.Deriv.MeanValue
import Mathlib.Analysis.Calculus.MeanValue

/-! The coefficients of the series and their derivatives along the meridian. -/

namespace Verif.Proj

/-- The latitude's functions which make up the coefficients, with their derivatives. -/
structure Frame (t c p n : ℝ → ℝ) (x : ℝ) : Prop where
  ht : HasDerivAt t (1 + t x ^ 2) x
  hc : HasDerivAt c (-(t x * c x)) x
  hp : HasDerivAt p (-(2 * (p x - 1) * t x)) x
  hn : HasDerivAt n (n x * t x * (p x - 1) / p x) x
  hp0 : p x ≠ 0
  hc0 : c x ≠ 0

section
variable {t c p n : ℝ → ℝ} {x : ℝ}

theorem Frame.step1 (f : Frame t c p n x) :
    HasDerivAt (fun x => n x * c x) (-(2 * (n x * t x * c x ^ 2 / 2) / (p x * c x))) x := by
  refine (f.hn.mul f.hc).congr_deriv ?_
  have := f.hp0; have := f.hc0
  field_simp
  ring

theorem Frame.step2 (f : Frame t c p n x) :
    HasDerivAt (fun x => n x * t x * c x ^ 2 / 2) (3 * (n x * c x ^ 3 * (p x - t x ^ 2) / 6) / (p x * c x)) x := by
  refine (((f.hn.mul f.ht).mul (f.hc.pow 2)).div_const 2).congr_deriv ?_
  have := f.hp0; have := f.hc0
  simp
  field_simp
  ring

theorem Frame.step3 (f : Frame t c p n x) :
    HasDerivAt (fun x => n x * c x ^ 3 * (p x - t x ^ 2) / 6)
      (-(4 * (n x * t x * c x ^ 4 * (4 * p x ^ 2 + p x - t x ^ 2) / 24) / (p x * c x))) x := by
  refine (((f.hn.mul (f.hc.pow 3)).mul (f.hp.sub (f.ht.pow 2))).div_const 6).congr_deriv ?_
  have := f.hp0; have := f.hc0
  simp
  field_simp
  ring

theorem Frame.step4 (f : Frame t c p n x) :
    HasDerivAt (fun x => n x * t x * c x ^ 4 * (4 * p x ^ 2 + p x - t x ^ 2) / 24)
      (5 * (n x * c x ^ 5 * (4 * p x ^ 3 * (1 - 6 * t x ^ 2) + p x ^ 2 * (1 + 8 * t x ^ 2) - 2 * p x * t x ^ 2 + t x ^ 4) / 120) / (p x * c x)) x := by
  refine ((((f.hn.mul f.ht).mul (f.hc.pow 4)).mul ((((f.hp.pow 2).const_mul 4).add f.hp).sub (f.ht.pow 2))).div_const 24).congr_deriv ?_
  have := f.hp0; have := f.hc0
  simp
  field_simp
  ring

theorem Frame.step5 (f : Frame t c p n x) :
    HasDerivAt (fun x => n x * c x ^ 5 * (4 * p x ^ 3 * (1 - 6 * t x ^ 2) + p x ^ 2 * (1 + 8 * t x ^ 2) - 2 * p x * t x ^ 2 + t x ^ 4) / 120)
      (-(6 * (n x * t x * c x ^ 6 * (8 * p x ^ 4 * (11 - 24 * t x ^ 2) - 28 * p x ^ 3 * (1 - 6 * t x ^ 2) + p x ^ 2 * (1 - 32 * t x ^ 2)
        - 2 * p x * t x ^ 2 + t x ^ 4) / 720) / (p x * c x))) x := by
  refine (((f.hn.mul (f.hc.pow 5)).mul ((((((f.hp.pow 3).const_mul 4).mul (((f.ht.pow 2).const_mul 6).const_sub 1)).add
    ((f.hp.pow 2).mul (((f.ht.pow 2).const_mul 8).const_add 1))).sub ((f.hp.const_mul 2).mul (f.ht.pow 2))).add (f.ht.pow 4))).div_const 120).congr_deriv ?_
  have := f.hp0; have := f.hc0
  simp
  field_simp
  ring

end

theorem sin_sq_le (x : ℝ) : Real.sin x ^ 2 ≤ 1 := by
  have := Real.sin_sq_add_cos_sq x
  nlinarith [sq_nonneg (Real.cos x)]

/-- The functions of latitude of the code. -/
theorem frame (x : ℝ) (hx : Real.cos x ≠ 0) :
    Frame Real.tan Real.cos (fun x => nu (Real.sin x) / rho (Real.sin x)) (fun x => nu (Real.sin x)) x := by
  have hsc := Real.sin_sq_add_cos_sq x
  have h3 : 0 < 1 - e2 := by have := e2_bounds.2; linarith
  have hw := w_pos _ (sin_sq_le x)
  have htan : Real.tan x = Real.sin x / Real.cos x := Real.tan_eq_sin_div_cos x
  have hpe : (fun x => nu (Real.sin x) / rho (Real.sin x)) = fun x => (1 - e2 * Real.sin x ^ 2) / (1 - e2) := by
    funext y; rw [psi_eq _ (sin_sq_le y)]; ring
  have hne : (fun x => nu (Real.sin x)) = fun x => semiMajor / Real.sqrt (1 - e2 * Real.sin x ^ 2) := by
    funext y
    unfold nu
    rw [Real.sqrt_eq_rpow, show e2 * Real.sin y * Real.sin y = e2 * Real.sin y ^ 2 by ring]
    norm_num
  have hwd : HasDerivAt (fun x => 1 - e2 * Real.sin x ^ 2) (-(e2 * (2 * Real.sin x * Real.cos x))) x := by
    refine ((((Real.hasDerivAt_sin x).pow 2).const_mul e2).const_sub 1).congr_deriv ?_
    simp
  have hw' : 0 < 1 - e2 * Real.sin x ^ 2 := by nlinarith [hw]
  have hq : Real.sqrt (1 - e2 * Real.sin x ^ 2) ^ 2 = 1 - e2 * Real.sin x ^ 2 := Real.sq_sqrt hw'.le
  have hq0 : 0 < Real.sqrt (1 - e2 * Real.sin x ^ 2) := Real.sqrt_pos.mpr hw'
  refine ⟨?_, ?_, ?_, ?_, ?_, hx⟩
  · refine (Real.hasDerivAt_tan hx).congr_deriv ?_
    rw [htan]
    field_simp
    linarith
  · refine (Real.hasDerivAt_cos x).congr_deriv ?_
    rw [htan]
    field_simp
  · rw [hpe]
    refine (hwd.div_const (1 - e2)).congr_deriv ?_
    rw [psi_eq _ (sin_sq_le x), show e2 * Real.sin x * Real.sin x = e2 * Real.sin x ^ 2 by ring, htan]
    rw [show (1 - e2 * Real.sin x ^ 2) / (1 - e2) - 1 = e2 * Real.cos x ^ 2 / (1 - e2) by
      rw [div_sub_one h3.ne']
      congr 1
      linear_combination (-e2) * hsc]
    field_simp
  · rw [hne]
    have hne' : nu (Real.sin x) = semiMajor / Real.sqrt (1 - e2 * Real.sin x ^ 2) := congrFun hne x
    refine ((hwd.sqrt hw'.ne').fun_inv hq0.ne').const_mul semiMajor |>.congr_deriv ?_ |>.congr_of_eventuallyEq ?_
    · rw [psi_eq _ (sin_sq_le x), show e2 * Real.sin x * Real.sin x = e2 * Real.sin x ^ 2 by ring, hne']
      rw [show (1 - e2 * Real.sin x ^ 2) / (1 - e2) - 1 = e2 * Real.cos x ^ 2 / (1 - e2) by
        rw [div_sub_one h3.ne']
        congr 1
        linear_combination (-e2) * hsc, htan, hq]
      generalize Real.sqrt (1 - e2 * Real.sin x ^ 2) = q at hq0 ⊢
      field_simp
    · exact Filter.Eventually.of_forall fun y => by simp [div_eq_mul_inv]
  · rw [psi_eq _ (sin_sq_le x)]
    exact (div_pos hw h3).ne'

/-! ### The sphere -/

theorem sphere (x : ℝ) (hx : Real.cos x ≠ 0) : Frame Real.tan Real.cos (fun _ => 1) (fun _ => 1) x where
  ht := (frame x hx).ht
  hc := (frame x hx).hc
  hp := (hasDerivAt_const x 1).congr_deriv (by simp)
  hn := (hasDerivAt_const x 1).congr_deriv (by simp)
  hp0 := one_ne_zero
  hc0 := hx

section
variable {t c : ℝ → ℝ} {x : ℝ}

theorem Frame.step6 (f : Frame t c (fun _ => 1) (fun _ => 1) x) :
    HasDerivAt (fun x => t x * c x ^ 6 * (61 - 58 * t x ^ 2 + t x ^ 4) / 720) (7 * (c x ^ 7 * (61 - 479 * t x ^ 2 + 179 * t x ^ 4 - t x ^ 6) / 5040) / c x) x := by
  refine (((f.ht.mul (f.hc.pow 6)).mul ((((f.ht.pow 2).const_mul 58).const_sub 61).add (f.ht.pow 4))).div_const 720).congr_deriv ?_
  have := f.hc0
  simp
  field_simp
  ring

theorem Frame.step7 (f : Frame t c (fun _ => 1) (fun _ => 1) x) :
    HasDerivAt (fun x => c x ^ 7 * (61 - 479 * t x ^ 2 + 179 * t x ^ 4 - t x ^ 6) / 5040)
      (-(8 * (t x * c x ^ 8 * (1385 - 3111 * t x ^ 2 + 543 * t x ^ 4 - t x ^ 6) / 40320) / c x)) x := by
  refine (((f.hc.pow 7).mul (((((f.ht.pow 2).const_mul 479).const_sub 61).add ((f.ht.pow 4).const_mul 179)).sub (f.ht.pow 6))).div_const 5040).congr_deriv ?_
  have := f.hc0
  simp
  field_simp
  ring

end

/-! ### The meridian -/

/-- The derivative of the meridian distance, as polynomial of the square of the sine. -/
theorem meridian_deriv (x : ℝ) : HasDerivAt meridian (semiMajor * ((1 - e2) * (1 + 3 / 2 * (e2 * Real.sin x ^ 2) + 15 / 8 * (e2 * Real.sin x ^ 2) ^ 2
    + 35 / 16 * (e2 * Real.sin x ^ 2) ^ 3) + 35 / 16 * e2 ^ 4 * Real.sin x ^ 6)) x := by
  have hl : ∀ k : ℝ, HasDerivAt (fun x => Real.sin (k * x)) (Real.cos (k * x) * k) x := by
    intro k
    have := ((hasDerivAt_id x).const_mul k).sin
    simpa using this
  have h := ((((hasDerivAt_id x).const_mul (semiMajor * A0)).add ((hl 2).const_mul (-semiMajor * A2))).add ((hl 4).const_mul (semiMajor * A4))).add
    ((hl 6).const_mul (-semiMajor * A6))
  refine h.congr_deriv ?_
  have c2 : Real.cos (2 * x) = 1 - 2 * Real.sin x ^ 2 := by rw [Real.cos_two_mul, Real.cos_sq']; ring
  have c4 : Real.cos (4 * x) = 2 * (1 - 2 * Real.sin x ^ 2) ^ 2 - 1 := by
    rw [show 4 * x = 2 * (2 * x) by ring, Real.cos_two_mul, c2]
  have c6 : Real.cos (6 * x) = 4 * (1 - 2 * Real.sin x ^ 2) ^ 3 - 3 * (1 - 2 * Real.sin x ^ 2) := by
    rw [show 6 * x = 3 * (2 * x) by ring, Real.cos_three_mul, c2]
  rw [c2, c4, c6]
  unfold A0 A2 A4 A6 e6 e4
  ring

/-- Bounds on the radius of curvature. -/
theorem inv_bounds (y q : ℝ) (h0 : 0 ≤ y) (h1 : y ≤ 0.0067) (hq : 0 < q) (hqq : q ^ 2 = 1 - y) :
    1 + 3 / 2 * y + 15 / 8 * y ^ 2 + 35 / 16 * y ^ 3 ≤ 1 / q ^ 3 ∧
    1 / q ^ 3 ≤ 1 + 3 / 2 * y + 15 / 8 * y ^ 2 + 35 / 16 * y ^ 3 + 2.6 * y ^ 4 := by
  have h6 : (q ^ 3) ^ 2 = (1 - y) ^ 3 := by rw [← pow_mul, show 3 * 2 = 2 * 3 by norm_num, pow_mul, hqq]
  have hq3 : 0 < q ^ 3 := by positivity
  have hpow : ∀ k : ℕ, y ^ (k + 1) ≤ 0.0067 := by
    intro k
    have : y ^ k ≤ 1 := pow_le_one₀ h0 (by linarith)
    rw [pow_succ]
    nlinarith [pow_nonneg h0 k]
  constructor
  · rw [le_div_iff₀ hq3]
    have hs : ((1 + 3 / 2 * y + 15 / 8 * y ^ 2 + 35 / 16 * y ^ 3) * q ^ 3) ^ 2 ≤ 1 ^ 2 := by
      rw [mul_pow, h6]
      have e : (1 + 3 / 2 * y + 15 / 8 * y ^ 2 + 35 / 16 * y ^ 3) ^ 2 * (1 - y) ^ 3 = 1 - y ^ 4 * (315 / 64 - 63 / 32 * y - 105 / 256 * y ^ 2
          - 45 / 256 * y ^ 3 - 1575 / 256 * y ^ 4 + 1225 / 256 * y ^ 5) := by ring
      rw [e]
      have k : 0 ≤ 315 / 64 - 63 / 32 * y - 105 / 256 * y ^ 2 - 45 / 256 * y ^ 3 - 1575 / 256 * y ^ 4 + 1225 / 256 * y ^ 5 := by
        have := hpow 1; have := hpow 2; have := hpow 3; have : 0 ≤ y ^ 5 := by positivity
        linarith
      have : 0 ≤ y ^ 4 := by positivity
      nlinarith [mul_nonneg this k]
    exact (sq_le_sq₀ (by positivity) (by norm_num)).mp hs
  · rw [div_le_iff₀ hq3]
    have hs : 1 ^ 2 ≤ ((1 + 3 / 2 * y + 15 / 8 * y ^ 2 + 35 / 16 * y ^ 3 + 2.6 * y ^ 4) * q ^ 3) ^ 2 := by
      rw [mul_pow, h6]
      have e : (1 + 3 / 2 * y + 15 / 8 * y ^ 2 + 35 / 16 * y ^ 3 + 2.6 * y ^ 4) ^ 2 * (1 - y) ^ 3 = 1 + y ^ 4 * (89 / 320 - 933 / 160 * y + 3021 / 1280 * y ^ 2
          + 641 / 1280 * y ^ 3 + 1519 / 6400 * y ^ 4 - 4417 / 6400 * y ^ 5 + 1781 / 200 * y ^ 6 - 169 / 25 * y ^ 7) := by ring
      rw [e]
      have k : 0 ≤ 89 / 320 - 933 / 160 * y + 3021 / 1280 * y ^ 2
          + 641 / 1280 * y ^ 3 + 1519 / 6400 * y ^ 4 - 4417 / 6400 * y ^ 5 + 1781 / 200 * y ^ 6 - 169 / 25 * y ^ 7 := by
        have := hpow 4; have := hpow 6
        have : 0 ≤ y ^ 2 := by positivity
        have : 0 ≤ y ^ 3 := by positivity
        have : 0 ≤ y ^ 4 := by positivity
        have : 0 ≤ y ^ 6 := by positivity
        linarith
      have : 0 ≤ y ^ 4 := by positivity
      nlinarith [mul_nonneg this k]
    exact (sq_le_sq₀ (by norm_num) (by positivity)).mp hs

/-- C104's meridian: its derivative is the radius of curvature to within 0.04 m. -/
theorem meridian_rho (x : ℝ) : ∃ d, HasDerivAt meridian d x ∧ |d - rho (Real.sin x)| ≤ 0.04 := by
  refine ⟨_, meridian_deriv x, ?_⟩
  have hs := sin_sq_le x
  have hs0 := sq_nonneg (Real.sin x)
  have hb := e2_bounds
  have he := e2_pos
  have hw : 0 < 1 - e2 * Real.sin x ^ 2 := by nlinarith [w_pos _ hs]
  have hq := Real.sq_sqrt hw.le
  have hq0 := Real.sqrt_pos.mpr hw
  have hrho : rho (Real.sin x) = semiMajor * ((1 - e2) * (1 / Real.sqrt (1 - e2 * Real.sin x ^ 2) ^ 3)) := by
    unfold rho
    rw [show e2 * Real.sin x * Real.sin x = e2 * Real.sin x ^ 2 by ring]
    generalize 1 - e2 * Real.sin x ^ 2 = w at hw
    have h3 : w ^ (1.5 : ℝ) = Real.sqrt w ^ 3 := by
      rw [Real.sqrt_eq_rpow, ← Real.rpow_natCast, ← Real.rpow_mul hw.le]
      norm_num
    rw [h3]
    ring
  rw [hrho]
  have hy0 : 0 ≤ e2 * Real.sin x ^ 2 := by positivity
  have hy1 : e2 * Real.sin x ^ 2 ≤ 0.0067 := by nlinarith
  obtain ⟨b1, b2⟩ := inv_bounds (e2 * Real.sin x ^ 2) _ hy0 hy1 hq0 hq
  have e4 : e2 ^ 4 ≤ 0.0067 ^ 4 := pow_le_pow_left₀ he.le hb.2.le 4
  have u6 : Real.sin x ^ 6 ≤ 1 := by
    rw [show Real.sin x ^ 6 = (Real.sin x ^ 2) ^ 3 by ring]; exact pow_le_one₀ hs0 hs
  have u60 : 0 ≤ Real.sin x ^ 6 := by positivity
  have y4 : (e2 * Real.sin x ^ 2) ^ 4 ≤ 0.0067 ^ 4 := pow_le_pow_left₀ hy0 hy1 4
  have k1 : 35 / 16 * e2 ^ 4 * Real.sin x ^ 6 ≤ 35 / 16 * 0.0067 ^ 4 := by
    have : 0 ≤ e2 ^ 4 := by positivity
    nlinarith
  have k0 : 0 ≤ 35 / 16 * e2 ^ 4 * Real.sin x ^ 6 := by positivity
  generalize 35 / 16 * e2 ^ 4 * Real.sin x ^ 6 = k at *
  generalize 1 / Real.sqrt (1 - e2 * Real.sin x ^ 2) ^ 3 = r at *
  generalize e2 * Real.sin x ^ 2 = y at *
  generalize 1 + 3 / 2 * y + 15 / 8 * y ^ 2 + 35 / 16 * y ^ 3 = P at *
  have m1 : (1 - e2) * (r - P) ≤ 2.6 * 0.0067 ^ 4 := by nlinarith
  have m0 : 0 ≤ (1 - e2) * (r - P) := mul_nonneg (by linarith) (by linarith)
  have e : semiMajor * ((1 - e2) * P + k) - semiMajor * ((1 - e2) * r) = semiMajor * (k - (1 - e2) * (r - P)) := by ring
  rw [e]
  unfold semiMajor
  rw [abs_le]
  norm_num at k1 m1 ⊢
  constructor <;> linarith

/-- The distance along the meridian, from its derivative. -/
theorem meridian_arc (m : ℝ → ℝ) (h0 : m 0 = 0) (hm : ∀ x, HasDerivAt m (rho (Real.sin x)) x) (x : ℝ) : |meridian x - m x| ≤ 0.04 * |x| := by
  have hd : ∀ y, HasDerivAt (fun y => meridian y - m y) ((meridian_rho y).choose - rho (Real.sin y)) y := fun y =>
    (meridian_rho y).choose_spec.1.sub (hm y)
  have := Convex.norm_image_sub_le_of_norm_hasDerivWithin_le (s := Set.univ) (C := 0.04) (x := 0) (y := x)
    (fun y _ => (hd y).hasDerivWithinAt) (fun y _ => (meridian_rho y).choose_spec.2) convex_univ (Set.mem_univ _) (Set.mem_univ _)
  have z : meridian 0 = 0 := by unfold meridian; simp
  simpa [z, h0] using this

end Verif.Proj
