import Verif.Proj.Spec
import Verif.Proj.Props
import Verif.Proj.LemmasConf

/-! C104: the projection is Mercator's transverse projection of the ellipsoid. -/

namespace Verif.Proj

/-- C104: on the central meridian the northing is the scaled distance from the equator along the meridian of the ellipsoid (whose radius of curvature is
`a (1 - e^2) / (1 - e^2 sin^2)^1.5`), to within four centimetres per radian. -/
theorem C104_meridian_distance (m : ℝ → ℝ) (hm : IsMeridianArc m fun x => semiMajor * (1 - e2) / (1 - e2 * Real.sin x ^ 2) ^ (1.5 : ℝ)) (lat : ℝ) (o : Opts) (z : ℤ)
    (cm : ℝ) (h : origin cm o = some (z, cm)) (hs : 0 ≤ o.scale.getD 0.9996) :
    ∃ e n, redfearn lat cm o = some (z, e, n) ∧
      |n - (o.falseNorthing.getD (if lat < 0 then 10000000 else 0) + o.scale.getD 0.9996 * m (lat * Real.pi / 180))|
        ≤ o.scale.getD 0.9996 * (0.04 * |lat * Real.pi / 180|) := by
  rw [redfearn_eq lat cm o z cm h]
  have z0 : (cm - cm) * Real.pi / 180 = 0 := by ring
  have z2 : ∀ phi, northSeries phi 0 = 0 := by intro phi; unfold northSeries; simp
  rw [z0, z2, add_zero]
  refine ⟨_, _, rfl, ?_⟩
  have hrho : ∀ x, HasDerivAt m (rho (Real.sin x)) x := by
    intro x
    unfold rho
    rw [show e2 * Real.sin x * Real.sin x = e2 * Real.sin x ^ 2 by ring]
    exact hm.2 x
  have := meridian_arc m hm.1 hrho (lat * Real.pi / 180)
  rw [show ∀ f k M M' : ℝ, f + k * M - (f + k * M') = k * (M - M') by intros; ring, abs_mul, abs_of_nonneg hs]
  exact mul_le_mul_of_nonneg_left this hs

/-- The coefficients on the ellipsoid (first to sixth) and the last two, which are those of a sphere. -/
noncomputable def coef (k : ℕ) (x : ℝ) : ℝ :=
  let n := nu (Real.sin x)
  let p := nu (Real.sin x) / rho (Real.sin x)
  let t := Real.tan x
  let c := Real.cos x
  match k with
  | 1 => n * c
  | 2 => n * t * c ^ 2 / 2
  | 3 => n * c ^ 3 * (p - t ^ 2) / 6
  | 4 => n * t * c ^ 4 * (4 * p ^ 2 + p - t ^ 2) / 24
  | 5 => n * c ^ 5 * (4 * p ^ 3 * (1 - 6 * t ^ 2) + p ^ 2 * (1 + 8 * t ^ 2) - 2 * p * t ^ 2 + t ^ 4) / 120
  | 6 => n * t * c ^ 6 * (8 * p ^ 4 * (11 - 24 * t ^ 2) - 28 * p ^ 3 * (1 - 6 * t ^ 2) + p ^ 2 * (1 - 32 * t ^ 2) - 2 * p * t ^ 2 + t ^ 4) / 720
  | _ => 0

noncomputable def ball (k : ℕ) (x : ℝ) : ℝ :=
  let t := Real.tan x
  let c := Real.cos x
  match k with
  | 1 => 1 * c
  | 2 => 1 * t * c ^ 2 / 2
  | 3 => 1 * c ^ 3 * (1 - t ^ 2) / 6
  | 4 => 1 * t * c ^ 4 * (4 * 1 ^ 2 + 1 - t ^ 2) / 24
  | 5 => 1 * c ^ 5 * (4 * 1 ^ 3 * (1 - 6 * t ^ 2) + 1 ^ 2 * (1 + 8 * t ^ 2) - 2 * 1 * t ^ 2 + t ^ 4) / 120
  | 6 => t * c ^ 6 * (61 - 58 * t ^ 2 + t ^ 4) / 720
  | 7 => c ^ 7 * (61 - 479 * t ^ 2 + 179 * t ^ 4 - t ^ 6) / 5040
  | 8 => t * c ^ 8 * (1385 - 3111 * t ^ 2 + 543 * t ^ 4 - t ^ 6) / 40320
  | _ => 0

theorem coef_conformal : Conformal (fun x => nu (Real.sin x) / rho (Real.sin x) * Real.cos x) 5 coef := by
  intro k h1 h2 x hx
  have f := frame x hx
  obtain rfl | rfl | rfl | rfl | rfl : k = 1 ∨ k = 2 ∨ k = 3 ∨ k = 4 ∨ k = 5 := by omega
  · exact f.step1.congr_deriv (by simp only [coef]; push_cast; ring)
  · exact f.step2.congr_deriv (by simp only [coef]; push_cast; ring)
  · exact f.step3.congr_deriv (by simp only [coef]; push_cast; ring)
  · exact f.step4.congr_deriv (by simp only [coef]; push_cast; ring)
  · exact f.step5.congr_deriv (by simp only [coef]; push_cast; ring)

theorem ball_conformal : Conformal Real.cos 7 ball := by
  intro k h1 h2 x hx
  have f := sphere x hx
  obtain rfl | rfl | rfl | rfl | rfl | rfl | rfl : k = 1 ∨ k = 2 ∨ k = 3 ∨ k = 4 ∨ k = 5 ∨ k = 6 ∨ k = 7 := by omega
  · exact f.step1.congr_deriv (by simp only [ball]; push_cast; ring)
  · exact f.step2.congr_deriv (by simp only [ball]; push_cast; ring)
  · exact f.step3.congr_deriv (by simp only [ball]; push_cast; ring)
  · exact f.step4.congr_deriv (by simp only [ball]; push_cast; ring)
  · exact f.step5.congr_deriv (by simp only [ball]; push_cast; ring)
  · exact f.step6.congr_deriv (by simp only [ball]; push_cast; ring)
  · exact f.step7.congr_deriv (by simp only [ball]; push_cast; ring)

/-- C104: the eastings and northings are those of the conformal projection whose first coefficient is the radius of the parallel, up to the sixth power of
the relative longitude on the ellipsoid and, for the seventh and eighth, on the sphere; except that the sixth term of the northing is too small by
`nu sin^3 cos^3 / 720`, which makes less than a tenth of a millimetre within a zone. -/
theorem C104_conformal : ∃ a b : ℕ → ℝ → ℝ,
    Conformal (fun x => nu (Real.sin x) / rho (Real.sin x) * Real.cos x) 5 a ∧ Conformal Real.cos 7 b ∧
    (∀ x, a 1 x = nu (Real.sin x) * Real.cos x) ∧ (∀ x, b 1 x = Real.cos x) ∧
    ∀ x, Real.cos x ≠ 0 → ∀ w,
      eastSeries x w = a 1 x * w + a 3 x * w ^ 3 + a 5 x * w ^ 5 + nu (Real.sin x) * b 7 x * w ^ 7 ∧
      northSeries x w = a 2 x * w ^ 2 + a 4 x * w ^ 4 + a 6 x * w ^ 6 + nu (Real.sin x) * b 8 x * w ^ 8
        - nu (Real.sin x) * (Real.sin x * Real.cos x) ^ 3 / 720 * w ^ 6 ∧
      (|w| ≤ 0.06 → |nu (Real.sin x) * (Real.sin x * Real.cos x) ^ 3 / 720 * w ^ 6| ≤ 0.0001) := by
  refine ⟨coef, ball, coef_conformal, ball_conformal, fun x => rfl, fun x => by simp [ball], ?_⟩
  intro x hx w
  have hs : Real.sin x = Real.tan x * Real.cos x := (Real.tan_mul_cos hx).symm
  refine ⟨?_, ?_, ?_⟩
  · simp only [eastSeries, coef, ball]
    generalize nu (Real.sin x) / rho (Real.sin x) = p
    generalize nu (Real.sin x) = n
    ring
  · simp only [northSeries, coef, ball]
    generalize nu (Real.sin x) / rho (Real.sin x) = p
    generalize nu (Real.sin x) = n
    rw [hs]
    ring
  · intro hw
    have hn := nu_le _ (sin_sq_le x)
    have hn0 := nu_pos _ (sin_sq_le x)
    have hsc : |Real.sin x * Real.cos x| ≤ 1 / 2 := by
      have := Real.sin_sq_add_cos_sq x
      rw [abs_le]
      constructor <;> nlinarith [sq_nonneg (Real.sin x + Real.cos x), sq_nonneg (Real.sin x - Real.cos x)]
    have h3 : |Real.sin x * Real.cos x| ^ 3 ≤ (1 / 2) ^ 3 := pow_le_pow_left₀ (abs_nonneg _) hsc 3
    have h6 : |w| ^ 6 ≤ 0.06 ^ 6 := pow_le_pow_left₀ (abs_nonneg _) hw 6
    rw [abs_mul, abs_div, abs_mul, abs_pow, abs_pow, abs_of_pos hn0, abs_of_pos (show (0 : ℝ) < 720 by norm_num)]
    have k1 : nu (Real.sin x) * |Real.sin x * Real.cos x| ^ 3 ≤ 6400000 * (1 / 2) ^ 3 := mul_le_mul hn.2 h3 (by positivity) (by norm_num)
    have k2 : nu (Real.sin x) * |Real.sin x * Real.cos x| ^ 3 / 720 ≤ 6400000 * (1 / 2) ^ 3 / 720 := by linarith
    have := mul_le_mul k2 h6 (by positivity) (by norm_num)
    norm_num at this ⊢
    linarith

/-- A conformal series is determined by its first coefficient. -/
theorem Conformal.unique (g : ℝ → ℝ) (hg : ∀ x, Real.cos x ≠ 0 → g x ≠ 0) (n : ℕ) (a b : ℕ → ℝ → ℝ) (ha : Conformal g n a) (hb : Conformal g n b)
    (h1 : ∀ x, Real.cos x ≠ 0 → a 1 x = b 1 x) (k : ℕ) (hk : k ≤ n) : ∀ x, Real.cos x ≠ 0 → a (k + 1) x = b (k + 1) x := by
  induction k with
  | zero => exact h1
  | succ k ih =>
    intro x hx
    have ih' := ih (by omega)
    have hev : a (k + 1) =ᶠ[nhds x] b (k + 1) := by
      have : ∀ᶠ y in nhds x, Real.cos y ≠ 0 := Real.continuous_cos.continuousAt.eventually_ne hx
      filter_upwards [this] with y hy using ih' y hy
    have da := ha (k + 1) (by omega) hk x hx
    have db := (hb (k + 1) (by omega) hk x hx).congr_of_eventuallyEq hev
    have e := da.unique db
    have hgx := hg x hx
    have hk' : ((k + 1 : ℕ) : ℝ) + 1 ≠ 0 := by positivity
    have hs : ((-1 : ℝ)) ^ (k + 1) ≠ 0 := pow_ne_zero _ (by norm_num)
    rw [div_left_inj' hgx] at e
    exact mul_left_cancel₀ hk' (mul_left_cancel₀ hs e)

/-- Disagreement: the coded series of the northing is not conformal: its sixth coefficient is too small, everywhere between equator and pole. -/
theorem C104_sixth_term (a : ℕ → ℝ → ℝ) (ha : Conformal (fun x => nu (Real.sin x) / rho (Real.sin x) * Real.cos x) 5 a)
    (h1 : ∀ x, a 1 x = nu (Real.sin x) * Real.cos x) (x : ℝ) (hx0 : 0 < x) (hx1 : x < Real.pi / 2) (c2 c4 c6 c8 : ℝ)
    (hc : ∀ w, northSeries x w = c2 * w ^ 2 + c4 * w ^ 4 + c6 * w ^ 6 + c8 * w ^ 8) : c2 = a 2 x ∧ c4 = a 4 x ∧ c6 < a 6 x := by
  have hcos : 0 < Real.cos x := Real.cos_pos_of_mem_Ioo ⟨by linarith, hx1⟩
  have hsin : 0 < Real.sin x := Real.sin_pos_of_pos_of_lt_pi hx0 (by linarith)
  have hg : ∀ x, Real.cos x ≠ 0 → nu (Real.sin x) / rho (Real.sin x) * Real.cos x ≠ 0 := by
    intro x hx
    exact mul_ne_zero (frame x hx).hp0 hx
  have u := fun k hk => Conformal.unique _ hg 5 a coef ha coef_conformal (fun x _ => by rw [h1]; rfl) k hk x hcos.ne'
  have hs : Real.sin x = Real.tan x * Real.cos x := (Real.tan_mul_cos hcos.ne').symm
  have hn : ∀ w, northSeries x w = a 2 x * w ^ 2 + a 4 x * w ^ 4 + (a 6 x - nu (Real.sin x) * (Real.sin x * Real.cos x) ^ 3 / 720) * w ^ 6
      + nu (Real.sin x) * ball 8 x * w ^ 8 := by
    intro w
    rw [u 1 (by norm_num), u 3 (by norm_num), u 5 (by norm_num)]
    simp only [northSeries, coef, ball]
    generalize nu (Real.sin x) / rho (Real.sin x) = p
    generalize nu (Real.sin x) = n
    rw [hs]
    ring
  have hd : 0 < nu (Real.sin x) * (Real.sin x * Real.cos x) ^ 3 / 720 := by
    have := nu_pos _ (sin_sq_le x)
    positivity
  have q1 := (hc 1).symm.trans (hn 1)
  have q2 := (hc 2).symm.trans (hn 2)
  have q3 := (hc 3).symm.trans (hn 3)
  have q4 := (hc 4).symm.trans (hn 4)
  generalize nu (Real.sin x) * (Real.sin x * Real.cos x) ^ 3 / 720 = d at *
  generalize nu (Real.sin x) * ball 8 x = e at *
  norm_num at q1 q2 q3 q4
  refine ⟨?_, ?_, ?_⟩ <;> linarith

end Verif.Proj
