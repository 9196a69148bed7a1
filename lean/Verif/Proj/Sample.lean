import Verif.Proj.PropsConf
import Verif.Proj.PropsDms
import Mathlib.MeasureTheory.Integral.IntervalIntegral.FundThmCalculus

/-! C104: points about zone 55 (Tasmania), whose central meridian is 147. -/

namespace Verif.Proj

theorem zone55 (lon : ℝ) (h1 : 144 ≤ lon) (h2 : lon < 150) (fe fn : Option ℝ) : origin lon { falseEasting := fe, falseNorthing := fn } = some (55, 147) := by
  have hz : zoneOf lon = some 55 := C104_zone_unique lon 55 (by norm_num) (by norm_num) (by norm_num; linarith) (by norm_num; linarith)
  unfold origin
  simp only [hz, Option.map_some]
  norm_num

/-- `C104_zone`: the longitude -180 is in zone 1, 179.5 in zone 60. -/
example : zoneOf (-180) = some 1 ∧ zoneOf 179.5 = some 60 :=
  ⟨C104_zone_unique (-180) 1 (by norm_num) (by norm_num) (by norm_num) (by norm_num),
   C104_zone_unique 179.5 60 (by norm_num) (by norm_num) (by norm_num) (by norm_num)⟩

/-- `C104_west_of_180`: its two cases. -/
example : zoneOf (-185) = none ∧ zoneOf (-195) = some (-1) :=
  ⟨(C104_west_of_180 (-185) (by norm_num)).1 (by norm_num), (C104_west_of_180 (-195) (by norm_num)).2 (by norm_num) (by norm_num)⟩

/-- `C104_axes`: on the central meridian, at any latitude, and on the equator. -/
example : (∃ n, redfearn (-42) 147 = some (55, 500000, n)) ∧ ∃ e, redfearn 0 149 = some (55, e, 0) :=
  ⟨(C104_axes (-42) 147 {} 55 147 (zone55 147 (by norm_num) (by norm_num) none none)).1 rfl,
   (C104_axes 0 149 {} 55 147 (zone55 149 (by norm_num) (by norm_num) none none)).2 rfl⟩

/-- `C104_mirror_meridian`: two degrees either side. -/
example : ∃ e e' n, redfearn (-42) (147 + 2) = some (55, e, n) ∧ redfearn (-42) (147 - 2) = some (55, e', n) ∧ e - 500000 = -(e' - 500000) :=
  C104_mirror_meridian (-42) 2 {} 55 147 (zone55 _ (by norm_num) (by norm_num) none none) (zone55 _ (by norm_num) (by norm_num) none none)

/-- `C104_mirror_equator`, with the usual false northing and with one given. -/
example : (∃ e n n', redfearn 42 148 = some (55, e, n) ∧ redfearn (-42) 148 = some (55, e, n') ∧ n + n' = 10000000) ∧
    ∃ e n n', redfearn 42 148 { falseNorthing := some 3 } = some (55, e, n) ∧ redfearn (-42) 148 { falseNorthing := some 3 } = some (55, e, n') ∧ n + n' = 2 * 3 :=
  ⟨C104_mirror_equator 42 148 {} 55 147 (zone55 148 (by norm_num) (by norm_num) none none) (by norm_num),
   C104_mirror_equator 42 148 { falseNorthing := some 3 } 55 147 (zone55 148 (by norm_num) (by norm_num) none (some 3)) (by norm_num)⟩

/-- `C104_easting_increases`. -/
example : ∃ e n e' n', redfearn (-42) 145 = some (55, e, n) ∧ redfearn (-42) 149 = some (55, e', n') ∧ e < e' :=
  C104_easting_increases (-42) 145 149 {} 55 147 (zone55 145 (by norm_num) (by norm_num) none none) (zone55 149 (by norm_num) (by norm_num) none none) (by norm_num)
    (by norm_num) (by norm_num) (by norm_num) (by norm_num)

/-- `C104_northing_increases`, in the south and, with a false northing, across the equator. -/
example : (∃ e n n', redfearn (-43) 147 = some (55, e, n) ∧ redfearn (-42) 147 = some (55, e, n') ∧ n < n') ∧
    ∃ e n n', redfearn (-1) 147 { falseNorthing := some 0 } = some (55, e, n) ∧ redfearn 1 147 { falseNorthing := some 0 } = some (55, e, n') ∧ n < n' :=
  ⟨C104_northing_increases (-43) (-42) {} 55 147 (zone55 147 (by norm_num) (by norm_num) none none) (by norm_num) (by norm_num) (.inr (.inr (by norm_num))),
   C104_northing_increases (-1) 1 { falseNorthing := some 0 } 55 147 (zone55 147 (by norm_num) (by norm_num) none (some 0)) (by norm_num) (by norm_num)
    (.inl (by simp))⟩

/-- `C104_easting_range`. -/
example : ∃ z e n, redfearn (-42) 147.5 = some (z, e, n) ∧ 160000 < e ∧ e < 840000 := C104_easting_range (-42) 147.5 (by norm_num) (by norm_num) (by norm_num)

/-- Disagreement: across the equator the northing falls by ten million: a point a little to the south of another is projected ten million metres to its
north, and the two are accepted together. -/
theorem C104_equator_jump : ∃ n n' : ℝ, ∃ r, redfearn (-1) 147 = some (55, 500000, n) ∧ redfearn 1 147 = some (55, 500000, n') ∧ n' + 9000000 < n ∧
    convert [(-1, 147), (1, 147)] = some r := by
  have ho := zone55 147 (by norm_num) (by norm_num) none none
  obtain ⟨e, n', n, h1, h2, h3⟩ := C104_mirror_equator 1 147 {} 55 147 ho (by norm_num)
  obtain ⟨x, hx⟩ := (C104_axes 1 147 {} 55 147 ho).1 rfl
  have he : e = 500000 := by
    rw [h1] at hx
    simp only [Option.some.injEq, Prod.mk.injEq, true_and, Option.getD_none] at hx
    exact hx.1
  subst he
  simp only at h3
  have hz : ∀ p ∈ [((-1 : ℝ), (147 : ℝ)), (1, 147)], zoneOf p.2 = some 55 := by
    intro p hp
    have : p.2 = 147 := by
      simp only [List.mem_cons, List.not_mem_nil, or_false] at hp
      rcases hp with rfl | rfl <;> rfl
    rw [this]
    exact C104_zone_unique 147 55 (by norm_num) (by norm_num) (by norm_num) (by norm_num)
  obtain ⟨r, hr⟩ := C104_one_zone [(-1, 147), (1, 147)] none none 55 hz
  refine ⟨n, n', r, h2, h1, ?_, hr⟩
  -- one degree is less than half a million metres
  have hn' : n' ≤ 450000 := by
    rw [redfearn_eq 1 147 {} 55 147 ho] at h1
    simp only [Option.getD_none, Option.some.injEq, Prod.mk.injEq, true_and] at h1
    obtain ⟨_, h1⟩ := h1
    rw [if_neg (by norm_num)] at h1
    have z0 : (147 - 147 : ℝ) * Real.pi / 180 = 0 := by ring
    have z2 : ∀ phi, northSeries phi 0 = 0 := by intro phi; unfold northSeries; simp
    rw [z0, z2, add_zero, one_mul] at h1
    have hpi := Real.pi_lt_d4
    have hpi0 := Real.pi_pos
    have hm : meridian (Real.pi / 180) ≤ 400000 := by
      have d : ∀ y, ∃ d, HasDerivAt meridian d y ∧ |d - rho (Real.sin y)| ≤ 0.04 := meridian_rho
      have hb : ∀ y, |(d y).choose| ≤ 6500000 := by
        intro y
        have h := (d y).choose_spec.2
        have hp := psi_bounds _ (sin_sq_le y)
        have hn := nu_le _ (sin_sq_le y)
        have hr0 : 0 < rho (Real.sin y) := by
          have := nu_pos _ (sin_sq_le y)
          by_contra hc
          have : nu (Real.sin y) / rho (Real.sin y) ≤ 0 := div_nonpos_of_nonneg_of_nonpos this.le (not_lt.mp hc)
          linarith [hp.1]
        have hr1 : rho (Real.sin y) ≤ 6400000 := by
          have := (le_div_iff₀ hr0).mp hp.1
          linarith [hn.2]
        have := abs_le.mp h
        rw [abs_le]
        norm_num at this ⊢
        constructor <;> linarith
      have := Convex.norm_image_sub_le_of_norm_hasDerivWithin_le (s := Set.univ) (C := 6500000) (x := 0) (y := Real.pi / 180)
        (fun y _ => (d y).choose_spec.1.hasDerivWithinAt) (fun y _ => hb y) convex_univ (Set.mem_univ _) (Set.mem_univ _)
      have z : meridian 0 = 0 := by unfold meridian; simp
      rw [z, sub_zero, sub_zero, Real.norm_eq_abs, Real.norm_eq_abs, abs_of_pos (by positivity : 0 < Real.pi / 180)] at this
      have := le_abs_self (meridian (Real.pi / 180))
      norm_num at hpi
      linarith
    norm_num at h1
    linarith
  linarith

/-- `C104_convert`, `C104_two_zones`: two points of zone 55 are accepted, with a point of zone 56 they are not. -/
example : (∃ r, convert [(-42, 147), (-43, 149.9)] = some r) ∧ convert [(-42, 147), (-43, 150)] = none := by
  have z1 : zoneOf 147 = some 55 := C104_zone_unique 147 55 (by norm_num) (by norm_num) (by norm_num) (by norm_num)
  have z2 : zoneOf 149.9 = some 55 := C104_zone_unique 149.9 55 (by norm_num) (by norm_num) (by norm_num) (by norm_num)
  have z3 : zoneOf 150 = some 56 := C104_zone_unique 150 56 (by norm_num) (by norm_num) (by norm_num) (by norm_num)
  constructor
  · apply C104_one_zone _ _ _ 55
    intro p hp
    simp only [List.mem_cons, List.not_mem_nil, or_false] at hp
    rcases hp with rfl | rfl
    · exact z1
    · exact z2
  · refine C104_two_zones _ _ _ ?_ (-42, 147) (-43, 150) (by simp) (by simp) ?_
    · intro p hp
      simp only [List.mem_cons, List.not_mem_nil, or_false] at hp
      rcases hp with rfl | rfl <;> norm_num
    · rw [z1, z3]; decide

/-- `C104_dms`, `C104_dms_sign`, `C104_dms_back`. -/
example : toDecimal (toDms (-37.5)).1 (toDms (-37.5)).2.1 (toDms (-37.5)).2.2 = some (-37.5) ∧
    toDecimal (toDms (-0.5)).1 (toDms (-0.5)).2.1 (toDms (-0.5)).2.2 = some 0.5 ∧ toDms (-37.5) = (-37, 30, 0) := by
  refine ⟨(C104_dms (-37.5) (.inr (by norm_num))).2.2.2.2, ?_, ?_⟩
  · rw [(C104_dms_sign (-0.5) (by norm_num) (by norm_num)).2]; norm_num
  · apply C104_dms_back (-37) 30 0 (-37.5) (by norm_num) (by norm_num) le_rfl (by norm_num)
    unfold toDecimal
    norm_num

/-- `C104_zones_agree`: Hobart; and the exceptions: Bergen is in zone 31 for one and in 32 for the other. -/
example : zoneOf 147.3 = some (utmZone (-42.9) 147.3) ∧ zoneOf 5.3 = some 31 ∧ utmZone 60.4 5.3 = 32 := by
  refine ⟨(C104_zones_agree (-42.9) 147.3 (by norm_num) (by norm_num) (by norm_num) (by norm_num)).1,
    C104_zone_unique 5.3 31 (by norm_num) (by norm_num) (by norm_num) (by norm_num), ?_⟩
  have ht : trunc ((5.3 + 180) / 360) = 0 := by
    rw [trunc_nonneg _ (by norm_num)]
    exact Int.floor_eq_iff.mpr ⟨by norm_num, by norm_num⟩
  have hf : fitLong 5.3 = 5.3 := by unfold fitLong; rw [ht]; norm_num
  unfold utmZone
  simp only [hf]
  norm_num

/-- `C104_meridian_distance`: its hypotheses hold for the integral of the radius of curvature. -/
example : ∃ m, IsMeridianArc m fun x => semiMajor * (1 - e2) / (1 - e2 * Real.sin x ^ 2) ^ (1.5 : ℝ) := by
  have hc : Continuous fun x => semiMajor * (1 - e2) / (1 - e2 * Real.sin x ^ 2) ^ (1.5 : ℝ) := by
    have hw : ∀ x, 0 < 1 - e2 * Real.sin x ^ 2 := by
      intro x
      nlinarith [w_pos _ (sin_sq_le x)]
    apply Continuous.div continuous_const
    · apply Continuous.rpow_const (by fun_prop)
      intro x
      exact .inl (hw x).ne'
    · intro x
      exact (Real.rpow_pos_of_pos (hw x) _).ne'
  exact ⟨fun x => ∫ y in (0 : ℝ)..x, semiMajor * (1 - e2) / (1 - e2 * Real.sin y ^ 2) ^ (1.5 : ℝ), by simp,
    fun x => intervalIntegral.integral_hasDerivAt_right (hc.intervalIntegrable _ _) (hc.stronglyMeasurableAtFilter _ _) hc.continuousAt⟩

/-- `C104_sixth_term`: conformal coefficients exist. -/
example : ∃ a, Conformal (fun x => nu (Real.sin x) / rho (Real.sin x) * Real.cos x) 5 a ∧ ∀ x, a 1 x = nu (Real.sin x) * Real.cos x :=
  ⟨coef, coef_conformal, fun _ => rfl⟩

end Verif.Proj
