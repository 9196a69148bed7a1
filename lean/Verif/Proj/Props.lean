import Verif.Proj.Lemmas

/-! C104: projecting latitudes and longitudes. -/

namespace Verif.Proj

/-! ### Zones -/

/-- C104: every longitude from -180 to 180 (excluded) is in the zone of six degrees which holds it, numbered from 1 at -180 to 60, and lies within three
degrees of its central meridian. -/
theorem C104_zone (lon : ℝ) (h1 : -180 ≤ lon) (h2 : lon < 180) :
    ∃ z : ℤ, zoneOf lon = some z ∧ 1 ≤ z ∧ z ≤ 60 ∧ 6 * (z : ℝ) - 186 ≤ lon ∧ lon < 6 * (z : ℝ) - 180 ∧
      origin lon {} = some (z, 6 * (z : ℝ) - 183) := by
  have hx : 0 ≤ (lon - (-186)) / 6 := by linarith
  have hf := Int.floor_le ((lon - (-186)) / 6)
  have hf' := Int.lt_floor_add_one ((lon - (-186)) / 6)
  have l1 : 1 ≤ ⌊(lon - (-186)) / 6⌋ := Int.le_floor.mpr (by push_cast; linarith)
  have l2 : ⌊(lon - (-186)) / 6⌋ < 61 := Int.floor_lt.mpr (by push_cast; linarith)
  have hz : zoneOf lon = some ⌊(lon - (-186)) / 6⌋ := by
    unfold zoneOf
    simp only
    rw [trunc_nonneg _ hx]
    generalize ⌊(lon - (-186)) / 6⌋ = f at l1 l2 ⊢
    have h60 : (if f > 60 then f - 60 else f) = f := if_neg (by omega)
    rw [h60, if_pos (Or.inr ⟨l1, by omega⟩)]
  refine ⟨⌊(lon - (-186)) / 6⌋, hz, l1, by omega, by linarith, by linarith, ?_⟩
  unfold origin
  simp only [hz, Option.map_some]
  congr 2
  ring

/-- A zone's number is determined by the longitude. -/
theorem C104_zone_unique (lon : ℝ) (z : ℤ) (h1 : 1 ≤ z) (h2 : z ≤ 60) (h3 : 6 * (z : ℝ) - 186 ≤ lon) (h4 : lon < 6 * (z : ℝ) - 180) :
    zoneOf lon = some z := by
  have hz1 : (1 : ℝ) ≤ z := by exact_mod_cast h1
  have hz2 : (z : ℝ) ≤ 60 := by exact_mod_cast h2
  obtain ⟨y, e, _, _, g3, g4, _⟩ := C104_zone lon (by linarith) (by linarith)
  rw [e]
  have a : (y : ℝ) < z + 1 := by linarith
  have b : (z : ℝ) < y + 1 := by linarith
  have a' : y < z + 1 := by exact_mod_cast a
  have b' : z < y + 1 := by exact_mod_cast b
  congr 1
  omega

/-- Disagreement: longitudes from 180 to 186 are put into zone 1, but the full circle is not taken off: the relative longitude is 357 degrees and more. -/
theorem C104_east_of_180 (lon : ℝ) (h1 : 180 ≤ lon) (h2 : lon < 186) : origin lon {} = some (1, -177) ∧ 357 ≤ lon - (-177) := by
  have hx : 0 ≤ (lon - (-186)) / 6 := by linarith
  have hf : ⌊(lon - (-186)) / 6⌋ = 61 := Int.floor_eq_iff.mpr ⟨by push_cast; linarith, by push_cast; linarith⟩
  refine ⟨?_, by linarith⟩
  unfold origin zoneOf
  simp only
  rw [trunc_nonneg _ hx, hf]
  norm_num

/-- Disagreement: longitudes little less than -180 are refused, but some still smaller are accepted, with zone -1. -/
theorem C104_west_of_180 (lon : ℝ) (h2 : lon < -180) :
    (-192 < lon → zoneOf lon = none) ∧ (-198 < lon → lon ≤ -192 → zoneOf lon = some (-1)) := by
  constructor
  · intro h1
    have ht : trunc ((lon - (-186)) / 6) = 0 := by
      by_cases hx : 0 ≤ (lon - (-186)) / 6
      · rw [trunc_nonneg _ hx]
        exact Int.floor_eq_iff.mpr ⟨by push_cast; linarith, by push_cast; linarith⟩
      · rw [trunc_neg _ (not_le.mp hx)]
        exact Int.ceil_eq_iff.mpr ⟨by push_cast; linarith, by push_cast; linarith⟩
    unfold zoneOf
    simp only
    rw [ht]
    norm_num
  · intro h1 h3
    have ht : trunc ((lon - (-186)) / 6) = -1 := by
      rw [trunc_neg _ (by linarith)]
      exact Int.ceil_eq_iff.mpr ⟨by push_cast; linarith, by push_cast; linarith⟩
    unfold zoneOf
    simp only
    rw [ht]
    norm_num

/-! ### Eastings and northings -/

theorem east_neg (phi w : ℝ) : eastSeries phi (-w) = -eastSeries phi w := by
  unfold eastSeries
  simp only
  ring

theorem north_neg (phi w : ℝ) : northSeries phi (-w) = northSeries phi w := by
  unfold northSeries
  simp only
  ring

theorem nu_neg (s : ℝ) : nu (-s) = nu s := by
  unfold nu; rw [show e2 * -s * -s = e2 * s * s by ring]

theorem rho_neg (s : ℝ) : rho (-s) = rho s := by
  unfold rho; rw [show e2 * -s * -s = e2 * s * s by ring]

theorem east_south (phi w : ℝ) : eastSeries (-phi) w = eastSeries phi w := by
  unfold eastSeries
  simp only [Real.sin_neg, Real.cos_neg, Real.tan_neg, nu_neg, rho_neg, neg_mul_neg]

theorem north_south (phi w : ℝ) : northSeries (-phi) w = -northSeries phi w := by
  unfold northSeries
  simp only [Real.sin_neg, Real.cos_neg, Real.tan_neg, nu_neg, rho_neg, neg_mul_neg]
  ring

theorem redfearn_eq (lat lon : ℝ) (o : Opts) (z : ℤ) (cm : ℝ) (h : origin lon o = some (z, cm)) :
    redfearn lat lon o = some (z, o.falseEasting.getD 500000 + o.scale.getD 0.9996 * eastSeries (lat * Real.pi / 180) ((lon - cm) * Real.pi / 180),
      o.falseNorthing.getD (if lat < 0 then 10000000 else 0) + o.scale.getD 0.9996 *
        (meridian (lat * Real.pi / 180) + northSeries (lat * Real.pi / 180) ((lon - cm) * Real.pi / 180))) := by
  unfold redfearn
  simp only [h]

/-- C104: on the central meridian the easting is the false easting, whatever the latitude, and on the equator the northing is the false
northing, whatever the longitude. -/
theorem C104_axes (lat lon : ℝ) (o : Opts) (z : ℤ) (cm : ℝ) (h : origin lon o = some (z, cm)) :
    (lon = cm → ∃ n, redfearn lat lon o = some (z, o.falseEasting.getD 500000, n)) ∧
    (lat = 0 → ∃ e, redfearn lat lon o = some (z, e, o.falseNorthing.getD 0)) := by
  rw [redfearn_eq lat lon o z cm h]
  constructor
  · rintro rfl
    have : ∀ phi, eastSeries phi 0 = 0 := by intro phi; unfold eastSeries; simp
    rw [sub_self, zero_mul, zero_div, this, mul_zero, add_zero]
    exact ⟨_, rfl⟩
  · rintro rfl
    rw [zero_mul, zero_div]
    have h1 : meridian 0 = 0 := by unfold meridian; simp
    have h2 : ∀ w, northSeries 0 w = 0 := by intro w; unfold northSeries; simp
    rw [h1, h2, add_zero, mul_zero, add_zero, if_neg (lt_irrefl _)]
    exact ⟨_, rfl⟩

/-- C104: points at equal distances east and west of the central meridian are mirror images: same northing, eastings the same distance from the
false easting. -/
theorem C104_mirror_meridian (lat d : ℝ) (o : Opts) (z : ℤ) (cm : ℝ) (h1 : origin (cm + d) o = some (z, cm)) (h2 : origin (cm - d) o = some (z, cm)) :
    ∃ e e' n, redfearn lat (cm + d) o = some (z, e, n) ∧ redfearn lat (cm - d) o = some (z, e', n) ∧
      e - o.falseEasting.getD 500000 = -(e' - o.falseEasting.getD 500000) := by
  rw [redfearn_eq lat _ o z cm h1, redfearn_eq lat _ o z cm h2]
  have e1 : (cm - d - cm) * Real.pi / 180 = -((cm + d - cm) * Real.pi / 180) := by ring
  rw [e1, north_neg, east_neg]
  exact ⟨_, _, _, rfl, rfl, by ring⟩

/-- C104: points at equal latitudes north and south are mirror images about the equator: same easting; with the usual false northings their northings add up
to ten million. -/
theorem C104_mirror_equator (lat lon : ℝ) (o : Opts) (z : ℤ) (cm : ℝ) (h : origin lon o = some (z, cm)) (hlat : 0 < lat) :
    ∃ e n n', redfearn lat lon o = some (z, e, n) ∧ redfearn (-lat) lon o = some (z, e, n') ∧
      n + n' = match o.falseNorthing with | none => 10000000 | some f => 2 * f := by
  rw [redfearn_eq lat lon o z cm h, redfearn_eq (-lat) lon o z cm h]
  rw [show -lat * Real.pi / 180 = -(lat * Real.pi / 180) by ring, east_south, north_south, meridian_odd]
  refine ⟨_, _, _, rfl, rfl, ?_⟩
  cases o.falseNorthing with
  | none =>
    simp only [Option.getD_none]
    rw [if_neg (not_lt.mpr hlat.le), if_pos (by linarith)]
    ring
  | some f => simp only [Option.getD_some]; ring

/-- Radians of a relative longitude of at most three degrees. -/
theorem omega_le (x : ℝ) (h : |x| ≤ 3) : |x * Real.pi / 180| ≤ 0.06 := by
  have hp := Real.pi_pos
  rw [abs_div, abs_mul, abs_of_pos hp, abs_of_pos (show (0 : ℝ) < 180 by norm_num)]
  have := half_zone
  have : |x| * Real.pi / 180 ≤ 3 * Real.pi / 180 := by
    apply div_le_div_of_nonneg_right _ (by norm_num)
    exact mul_le_mul_of_nonneg_right h hp.le
  linarith

theorem cos_pos_of_lat (lat : ℝ) (h : |lat| < 90) : 0 < Real.cos (lat * Real.pi / 180) := by
  have hp := Real.pi_pos
  have := abs_lt.mp h
  apply Real.cos_pos_of_mem_Ioo
  constructor
  · nlinarith
  · nlinarith

/-- C104: on a parallel (not a pole) eastings grow with the longitude from west to east, for longitudes within three degrees of the central meridian; so no two
points of a zone on one parallel are projected to the same point. -/
theorem C104_easting_increases (lat lon lon' : ℝ) (o : Opts) (z : ℤ) (cm : ℝ) (h1 : origin lon o = some (z, cm)) (h2 : origin lon' o = some (z, cm))
    (hs : 0 < o.scale.getD 0.9996) (hlat : |lat| < 90) (hl : |lon - cm| ≤ 3) (hl' : |lon' - cm| ≤ 3) (hlt : lon < lon') :
    ∃ e n e' n', redfearn lat lon o = some (z, e, n) ∧ redfearn lat lon' o = some (z, e', n') ∧ e < e' := by
  rw [redfearn_eq lat lon o z cm h1, redfearn_eq lat lon' o z cm h2]
  refine ⟨_, _, _, _, rfl, rfl, ?_⟩
  have hc := cos_pos_of_lat lat hlat
  rw [east_eq _ _ hc.ne', east_eq _ _ hc.ne']
  have hsc : Real.sin (lat * Real.pi / 180) ^ 2 + Real.cos (lat * Real.pi / 180) ^ 2 = 1 := Real.sin_sq_add_cos_sq _
  have hn := nu_pos (Real.sin (lat * Real.pi / 180)) (by nlinarith [sq_nonneg (Real.cos (lat * Real.pi / 180))])
  have hlt' : (lon - cm) * Real.pi / 180 < (lon' - cm) * Real.pi / 180 := by
    apply div_lt_div_of_pos_right _ (by norm_num)
    exact mul_lt_mul_of_pos_right (by linarith) Real.pi_pos
  have := east_lt _ _ hsc _ _ (omega_le _ hl) (omega_le _ hl') hlt'
  have hk := mul_pos hn hc
  have := mul_lt_mul_of_pos_left this hk
  have := mul_lt_mul_of_pos_left this hs
  linarith

/-- C104: along the central meridian northings grow from south to north, within one hemisphere, or everywhere if the false northing is given. -/
theorem C104_northing_increases (lat lat' : ℝ) (o : Opts) (z : ℤ) (cm : ℝ) (h : origin cm o = some (z, cm)) (hs : 0 < o.scale.getD 0.9996)
    (hlt : lat < lat') (hside : o.falseNorthing ≠ none ∨ 0 ≤ lat ∨ lat' < 0) :
    ∃ e n n', redfearn lat cm o = some (z, e, n) ∧ redfearn lat' cm o = some (z, e, n') ∧ n < n' := by
  rw [redfearn_eq lat cm o z cm h, redfearn_eq lat' cm o z cm h]
  have z0 : (cm - cm) * Real.pi / 180 = 0 := by ring
  have z1 : ∀ phi, eastSeries phi 0 = 0 := by intro phi; unfold eastSeries; simp
  have z2 : ∀ phi, northSeries phi 0 = 0 := by intro phi; unfold northSeries; simp
  simp only [z0, z1, z2, mul_zero, add_zero]
  refine ⟨_, _, _, rfl, rfl, ?_⟩
  have hm : meridian (lat * Real.pi / 180) < meridian (lat' * Real.pi / 180) := by
    apply meridian_lt
    apply div_lt_div_of_pos_right _ (by norm_num)
    exact mul_lt_mul_of_pos_right hlt Real.pi_pos
  have := mul_lt_mul_of_pos_left hm hs
  have hf : o.falseNorthing.getD (if lat < 0 then 10000000 else 0) = o.falseNorthing.getD (if lat' < 0 then 10000000 else 0) := by
    cases hfn : o.falseNorthing with
    | some f => rfl
    | none =>
      simp only [Option.getD_none]
      rcases hside with h | h | h
      · exact absurd hfn h
      · rw [if_neg (not_lt.mpr h), if_neg (not_lt.mpr (by linarith))]
      · rw [if_pos (by linarith), if_pos h]
  rw [hf]
  linarith

/-- C104: with the usual constants every point of the zone has an easting between 160 000 and 840 000. -/
theorem C104_easting_range (lat lon : ℝ) (h1 : -180 ≤ lon) (h2 : lon < 180) (hlat : |lat| < 90) :
    ∃ z e n, redfearn lat lon = some (z, e, n) ∧ 160000 < e ∧ e < 840000 := by
  obtain ⟨z, _, _, _, g3, g4, ho⟩ := C104_zone lon h1 h2
  rw [redfearn_eq lat lon {} z _ ho]
  refine ⟨_, _, _, rfl, ?_⟩
  simp only [Option.getD_none]
  have hc := cos_pos_of_lat lat hlat
  rw [east_eq _ _ hc.ne']
  have hsc : Real.sin (lat * Real.pi / 180) ^ 2 + Real.cos (lat * Real.pi / 180) ^ 2 = 1 := Real.sin_sq_add_cos_sq _
  have hs2 : Real.sin (lat * Real.pi / 180) ^ 2 ≤ 1 := by nlinarith [sq_nonneg (Real.cos (lat * Real.pi / 180))]
  obtain ⟨_, hn⟩ := nu_le _ hs2
  have hn0 := nu_pos _ hs2
  have hcm : |lon - (6 * (z : ℝ) - 183)| ≤ 3 := abs_le.mpr ⟨by linarith, by linarith⟩
  have hw := omega_le _ hcm
  have he := east_abs _ _ hsc _ hw
  have hw' : |(lon - (6 * (z : ℝ) - 183)) * Real.pi / 180| ≤ 0.0524 := by
    have hp := Real.pi_pos
    rw [abs_div, abs_mul, abs_of_pos hp, abs_of_pos (show (0 : ℝ) < 180 by norm_num)]
    have := Real.pi_lt_d4
    have : |lon - (6 * (z : ℝ) - 183)| * Real.pi ≤ 3 * Real.pi := mul_le_mul_of_nonneg_right hcm hp.le
    rw [div_le_iff₀ (by norm_num)]
    linarith
  have hc1 := Real.cos_le_one (lat * Real.pi / 180)
  generalize east _ _ _ = E at *
  generalize nu _ = n at *
  generalize Real.cos _ = c at *
  have hE : |E| ≤ 0.0530 := by linarith
  have hnc : 0 ≤ n * c ∧ n * c ≤ 6400000 := ⟨by positivity, by nlinarith⟩
  have hprod : |n * c * E| ≤ 6400000 * 0.0530 := by
    rw [abs_mul, abs_of_nonneg hnc.1]
    exact mul_le_mul hnc.2 hE (abs_nonneg _) (by norm_num)
  have := abs_le.mp hprod
  norm_num at this
  norm_num
  constructor <;> linarith

/-- Disagreement: the point of the equator at longitude 180, which is that at -180, is given an easting of more than thirty million. -/
theorem C104_full_circle : ∃ e n e' n', redfearn 0 180 = some (1, e, n) ∧ redfearn 0 (-180) = some (1, e', n') ∧ 30000000 < e ∧ e' < 840000 := by
  obtain ⟨ho, _⟩ := C104_east_of_180 180 le_rfl (by norm_num)
  obtain ⟨z, e', n', g1, _, g3⟩ := C104_easting_range 0 (-180) le_rfl (by norm_num) (by norm_num)
  have hz : z = 1 := by
    have := C104_zone_unique (-180) 1 le_rfl (by norm_num) (by norm_num) (by norm_num)
    unfold redfearn origin at g1
    simp only [this, Option.map_some, Option.some.injEq, Prod.mk.injEq] at g1
    exact g1.1.symm
  subst hz
  rw [redfearn_eq 0 180 {} 1 _ ho]
  refine ⟨_, _, e', n', rfl, g1, ?_, g3⟩
  simp only [Option.getD_none, zero_mul, zero_div]
  have hc : Real.cos 0 ≠ 0 := by simp
  rw [east_eq _ _ hc]
  simp only [Real.sin_zero, Real.cos_zero, mul_one]
  have hpsi := psi_bounds 0 (by norm_num)
  have hn := nu_le 0 (by norm_num)
  unfold semiMajor at hn
  have hw : 6.2 ≤ (180 - (-177)) * Real.pi / 180 := by have := Real.pi_gt_d4; linarith
  generalize (180 - (-177)) * Real.pi / 180 = w at *
  have hw0 : 0 ≤ w := by linarith
  have k3 : 0 ≤ c3 0 1 := by unfold c3; norm_num; linarith [hpsi.1]
  have k5 : 0 ≤ c5 0 1 := by
    unfold c5; norm_num
    have h0 : 0 ≤ nu 0 / rho 0 := by linarith [hpsi.1]
    positivity
  have k7 : 0 ≤ c7 0 1 := by unfold c7; norm_num
  have hE : 6.2 ≤ east 0 1 w := by
    unfold east
    have : 0 ≤ c3 0 1 / 6 * w ^ 3 := by positivity
    have : 0 ≤ c5 0 1 / 120 * w ^ 5 := by positivity
    have : 0 ≤ c7 0 1 / 5040 * w ^ 7 := by positivity
    linarith
  have : 6378137 * 6.2 ≤ nu 0 * east 0 1 w := mul_le_mul hn.1 hE (by norm_num) (by linarith [hn.1])
  norm_num at this ⊢
  linarith

/-! ### Many points -/

theorem convertFrom_eq (fe fn : Option ℝ) (ps : List (ℝ × ℝ)) (z : ℤ) (pts : List (ℝ × ℝ)) (z' : ℤ) (h : convertFrom fe fn ps z = some (pts, z')) :
    pts.length = ps.length ∧ (z ≠ -1 → z' = z) ∧
    ∀ (i : ℕ) lat lon, ps[i]? = some (lat, lon) → ∃ y e n, redfearn lat lon { falseEasting := fe, falseNorthing := fn } = some (y, e, n) ∧
      pts[i]? = some (e, n) ∧ (y = z' ∨ y = -1) := by
  induction ps generalizing z pts with
  | nil =>
    simp only [convertFrom, Option.some.injEq, Prod.mk.injEq] at h
    obtain ⟨rfl, rfl⟩ := h
    simp
  | cons p ps ih =>
    obtain ⟨lat, lon⟩ := p
    unfold convertFrom at h
    cases hr : redfearn lat lon { falseEasting := fe, falseNorthing := fn } with
    | none => rw [hr] at h; simp at h
    | some r =>
      obtain ⟨y, e, n⟩ := r
      rw [hr] at h
      simp only at h
      have step : ∀ w, (convertFrom fe fn ps w).map (fun r => ((e, n) :: r.1, r.2)) = some (pts, z') → (w = y ∨ y = -1) → (z ≠ -1 → z = w) →
          pts.length = (((lat, lon) :: ps)).length ∧ (z ≠ -1 → z' = z) ∧
          ∀ (i : ℕ) lat' lon', ((lat, lon) :: ps)[i]? = some (lat', lon') → ∃ y e n,
            redfearn lat' lon' { falseEasting := fe, falseNorthing := fn } = some (y, e, n) ∧ pts[i]? = some (e, n) ∧ (y = z' ∨ y = -1) := by
        intro w hw hy hzw
        cases hc : convertFrom fe fn ps w with
        | none => rw [hc] at hw; simp at hw
        | some r =>
          obtain ⟨q, x⟩ := r
          rw [hc] at hw
          simp only [Option.map_some, Option.some.injEq, Prod.mk.injEq] at hw
          obtain ⟨rfl, rfl⟩ := hw
          obtain ⟨i1, i2, i3⟩ := ih w q hc
          refine ⟨by simp [i1], ?_, ?_⟩
          · intro hz
            have hw := hzw hz
            exact (i2 (hw ▸ hz)).trans hw.symm
          · intro i lat' lon' hi
            cases i with
            | zero =>
              simp only [List.getElem?_cons_zero, Option.some.injEq, Prod.mk.injEq] at hi
              obtain ⟨rfl, rfl⟩ := hi
              refine ⟨y, e, n, hr, rfl, ?_⟩
              rcases hy with rfl | hy
              · by_cases hw1 : w = -1
                · right; exact hw1
                · left; exact (i2 hw1).symm
              · right; exact hy
            | succ i =>
              rw [List.getElem?_cons_succ] at hi
              rw [List.getElem?_cons_succ]
              exact i3 i lat' lon' hi
      split_ifs at h with c1 c2
      · exact step z h c1 (fun _ => rfl)
      · exact step y h (.inl rfl) (fun hz => absurd c2 hz)

/-- C104: converted points come in the order given, each as projected by itself, and all in the one zone returned (for longitudes from -180 to 180). -/
theorem C104_convert (ps : List (ℝ × ℝ)) (fe fn : Option ℝ) (pts : List (ℝ × ℝ)) (z : ℤ) (h : convert ps fe fn = some (pts, z))
    (hlon : ∀ p ∈ ps, -180 ≤ p.2 ∧ p.2 < 180) :
    pts.length = ps.length ∧ (ps = [] → z = -1) ∧ ∀ (i : ℕ) lat lon, ps[i]? = some (lat, lon) →
      zoneOf lon = some z ∧ ∃ e n, redfearn lat lon { falseEasting := fe, falseNorthing := fn } = some (z, e, n) ∧ pts[i]? = some (e, n) := by
  obtain ⟨h1, _, h3⟩ := convertFrom_eq fe fn ps (-1) pts z h
  refine ⟨h1, ?_, ?_⟩
  · rintro rfl
    simp only [convert, convertFrom, Option.some.injEq, Prod.mk.injEq] at h
    exact h.2.symm
  · intro i lat lon hi
    obtain ⟨y, e, n, e1, e2, e3⟩ := h3 i lat lon hi
    obtain ⟨l1, l2⟩ := hlon _ (List.mem_of_getElem? hi)
    obtain ⟨x, x1, x2, _, _, _, _⟩ := C104_zone lon l1 l2
    have hyx : y = x := by
      unfold redfearn origin at e1
      simp only [x1, Option.map_some, Option.some.injEq, Prod.mk.injEq] at e1
      exact e1.1.symm
    have hyz : y = z := by
      rcases e3 with e3 | e3
      · exact e3
      · omega
    subst hyx
    subst hyz
    exact ⟨x1, e, n, e1, e2⟩

/-- C104: points of two zones are refused. -/
theorem C104_two_zones (ps : List (ℝ × ℝ)) (fe fn : Option ℝ) (hlon : ∀ p ∈ ps, -180 ≤ p.2 ∧ p.2 < 180) (p q : ℝ × ℝ) (hp : p ∈ ps) (hq : q ∈ ps)
    (hne : zoneOf p.2 ≠ zoneOf q.2) : convert ps fe fn = none := by
  cases h : convert ps fe fn with
  | none => rfl
  | some r =>
    obtain ⟨_, _, h3⟩ := C104_convert ps fe fn r.1 r.2 h hlon
    obtain ⟨i, hi⟩ := List.mem_iff_getElem?.mp hp
    obtain ⟨j, hj⟩ := List.mem_iff_getElem?.mp hq
    exact absurd ((h3 i p.1 p.2 hi).1.trans (h3 j q.1 q.2 hj).1.symm) hne

/-- C104: and points of one zone are not. -/
theorem C104_one_zone (ps : List (ℝ × ℝ)) (fe fn : Option ℝ) (z : ℤ) (hz : ∀ p ∈ ps, zoneOf p.2 = some z) : ∃ r, convert ps fe fn = some r := by
  have key : ∀ (ps : List (ℝ × ℝ)), (∀ p ∈ ps, zoneOf p.2 = some z) → ∀ w, w = z ∨ w = -1 → ∃ r, convertFrom fe fn ps w = some r := by
    intro ps
    induction ps with
    | nil => intro _ w _; exact ⟨_, rfl⟩
    | cons p ps ih =>
      intro hz w hw
      obtain ⟨lat, lon⟩ := p
      have ho : origin lon { falseEasting := fe, falseNorthing := fn } = some (z, (z : ℝ) * 6 + (-183)) := by
        unfold origin
        simp only [hz (lat, lon) (List.mem_cons_self ..), Option.map_some]
      unfold convertFrom
      rw [redfearn_eq lat lon _ z _ ho]
      simp only
      have ih' := ih (fun p hp => hz p (List.mem_cons_of_mem _ hp))
      by_cases c1 : w = z ∨ z = -1
      · obtain ⟨r, hr⟩ := ih' w hw
        rw [if_pos c1, hr]
        exact ⟨_, rfl⟩
      · have c2 : w = -1 := by
          rcases hw with hw | hw
          · exact absurd (.inl hw) c1
          · exact hw
        obtain ⟨r, hr⟩ := ih' z (.inl rfl)
        rw [if_neg c1, if_pos c2, hr]
        exact ⟨_, rfl⟩
  exact key ps hz (-1) (.inr rfl)

end Verif.Proj
