import Verif.Proj.Props

/-! C104: degrees, minutes and seconds; the zones of the two conversions. -/

namespace Verif.Proj

theorem trunc_split (x : ℝ) (hx : 0 ≤ x) (d : ℤ) (m : ℤ) (s : ℝ) (hm0 : 0 ≤ m) (hm : m < 60) (hs0 : 0 ≤ s) (hs : s < 60)
    (he : x = d + m / 60 + s / 3600) : trunc x = d ∧ trunc ((x - d) * 60) = m ∧ ((x - d) * 60 - m) * 60 = s := by
  have hm' : (m : ℝ) ≤ 59 := by exact_mod_cast (show m ≤ 59 by omega)
  have hm0' : (0 : ℝ) ≤ m := by exact_mod_cast hm0
  have h1 : trunc x = d := by
    rw [trunc_nonneg _ hx]
    exact Int.floor_eq_iff.mpr ⟨by linarith, by linarith⟩
  have h2 : trunc ((x - d) * 60) = m := by
    rw [trunc_nonneg _ (by linarith)]
    exact Int.floor_eq_iff.mpr ⟨by linarith, by linarith⟩
  refine ⟨h1, h2, ?_⟩
  rw [he]; ring

theorem split_exists (x : ℝ) (hx : 0 ≤ x) : ∃ (d m : ℤ) (s : ℝ), 0 ≤ d ∧ 0 ≤ m ∧ m < 60 ∧ 0 ≤ s ∧ s < 60 ∧ x = d + m / 60 + s / 3600 := by
  have f1 := Int.floor_le x
  have f2 := Int.lt_floor_add_one x
  have g1 := Int.floor_le ((x - ⌊x⌋) * 60)
  have g2 := Int.lt_floor_add_one ((x - ⌊x⌋) * 60)
  refine ⟨⌊x⌋, ⌊(x - ⌊x⌋) * 60⌋, ((x - ⌊x⌋) * 60 - ⌊(x - ⌊x⌋) * 60⌋) * 60, Int.floor_nonneg.mpr hx, Int.floor_nonneg.mpr (by linarith), ?_, by linarith, by linarith,
    by ring⟩
  exact Int.floor_lt.mpr (by push_cast; linarith)

/-- C104: decimal degrees are split into whole degrees, whole minutes below 60 and seconds below 60, and joined again give the number they came from: for all numbers that
are not between -1 and 0. -/
theorem C104_dms (dec : ℝ) (h : 0 ≤ dec ∨ dec ≤ -1) :
    0 ≤ (toDms dec).2.1 ∧ (toDms dec).2.1 < 60 ∧ 0 ≤ (toDms dec).2.2 ∧ (toDms dec).2.2 < 60 ∧
    toDecimal (toDms dec).1 (toDms dec).2.1 (toDms dec).2.2 = some dec := by
  obtain ⟨d, m, s, hd, hm0, hm, hs0, hs, he⟩ := split_exists |dec| (abs_nonneg _)
  obtain ⟨t1, t2, t3⟩ := trunc_split _ (abs_nonneg _) d m s hm0 hm hs0 hs he
  have hm0' : (0 : ℝ) ≤ m := by exact_mod_cast hm0
  have hd' : (0 : ℝ) ≤ d := by exact_mod_cast hd
  have hform : toDms dec = ((if dec < 0 then -1 else 1) * d, m, s) := by
    unfold toDms
    simp only [t1, t2, t3]
  rw [hform]
  refine ⟨hm0, hm, hs0, hs, ?_⟩
  unfold toDecimal
  rw [if_pos ⟨abs_of_nonneg hm0', abs_of_nonneg hs0⟩]
  rcases h with h | h
  · rw [if_neg (not_lt.mpr h)]
    push_cast
    rw [one_mul, if_neg (not_lt.mpr hd'), abs_of_nonneg hd', one_mul, ← he, abs_of_nonneg h]
  · have hneg : dec < 0 := by linarith
    rw [if_pos hneg]
    have h1 : 1 ≤ |dec| := by rw [abs_of_neg (by linarith)]; linarith
    have hm' : (m : ℝ) ≤ 59 := by exact_mod_cast (show m ≤ 59 by omega)
    have hd1 : (0 : ℝ) < d := by
      by_contra hc
      have : (d : ℝ) = 0 := le_antisymm (not_lt.mp hc) hd'
      rw [this] at he
      linarith
    push_cast
    have hn1 : (-1 : ℝ) * d < 0 := by linarith
    rw [if_pos hn1, abs_of_neg hn1, abs_of_neg hneg] at *
    congr 1
    linarith

/-- Disagreement: between -1 and 0 the sign is lost: joined again they give the opposite number. -/
theorem C104_dms_sign (dec : ℝ) (h1 : -1 < dec) (h2 : dec < 0) :
    (toDms dec).1 = 0 ∧ toDecimal (toDms dec).1 (toDms dec).2.1 (toDms dec).2.2 = some (-dec) := by
  obtain ⟨d, m, s, hd, hm0, hm, hs0, hs, he⟩ := split_exists |dec| (abs_nonneg _)
  obtain ⟨t1, t2, t3⟩ := trunc_split _ (abs_nonneg _) d m s hm0 hm hs0 hs he
  have hm0' : (0 : ℝ) ≤ m := by exact_mod_cast hm0
  have hd' : (0 : ℝ) ≤ d := by exact_mod_cast hd
  have ha : |dec| = -dec := abs_of_neg h2
  have hd0 : d = 0 := by
    have : (d : ℝ) < 1 := by linarith
    have : d < 1 := by exact_mod_cast this
    omega
  subst hd0
  have hform : toDms dec = (0, m, s) := by
    unfold toDms
    simp only [t1, t2, t3, mul_zero]
  rw [hform]
  refine ⟨rfl, ?_⟩
  unfold toDecimal
  rw [if_pos ⟨abs_of_nonneg hm0', abs_of_nonneg hs0⟩]
  push_cast at he ⊢
  rw [if_neg (lt_irrefl _), abs_zero, one_mul, ← ha, he]

/-- C104: and degrees, minutes and seconds joined and split again are what they were. -/
theorem C104_dms_back (d m : ℤ) (s dec : ℝ) (hm0 : 0 ≤ m) (hm : m < 60) (hs0 : 0 ≤ s) (hs : s < 60) (h : toDecimal d m s = some dec) :
    toDms dec = (d, m, s) := by
  have hm0' : (0 : ℝ) ≤ m := by exact_mod_cast hm0
  unfold toDecimal at h
  rw [if_pos ⟨abs_of_nonneg hm0', abs_of_nonneg hs0⟩] at h
  simp only [Option.some.injEq] at h
  have hA : |dec| = ((|d| : ℤ) : ℝ) + m / 60 + s / 3600 := by
    have hp : (0 : ℝ) ≤ |(d : ℝ)| + m / 60 + s / 3600 := by positivity
    rw [← h, abs_mul, abs_of_nonneg hp, Int.cast_abs]
    split_ifs <;> simp
  obtain ⟨t1, t2, t3⟩ := trunc_split _ (abs_nonneg dec) |d| m s hm0 hm hs0 hs hA
  have hform : toDms dec = ((if dec < 0 then -1 else 1) * |d|, m, s) := by
    unfold toDms
    simp only [t1, t2, t3]
  rw [hform]
  by_cases hd : (d : ℝ) < 0
  · have hd' : d < 0 := by exact_mod_cast hd
    rw [if_pos hd] at h
    have hp : (0 : ℝ) < |(d : ℝ)| + m / 60 + s / 3600 := by
      have : 0 < |(d : ℝ)| := abs_pos.mpr hd.ne
      positivity
    rw [if_pos (by linarith), abs_of_neg hd']
    simp
  · have hd' : 0 ≤ d := by exact_mod_cast not_lt.mp hd
    rw [if_neg hd] at h
    have hp : (0 : ℝ) ≤ |(d : ℝ)| + m / 60 + s / 3600 := by positivity
    rw [if_neg (by linarith), abs_of_nonneg hd']
    simp

/-! ### The other conversion -/

/-- C104: both conversions put a point into the same zone, with the same central meridian, outside south-west Norway and Svalbard. -/
theorem C104_zones_agree (lat lon : ℝ) (h1 : -180 ≤ lon) (h2 : lon < 180) (hn : ¬ (56 ≤ lat ∧ lat < 64 ∧ 3 ≤ lon ∧ lon < 12))
    (hs : ¬ (72 ≤ lat ∧ lat < 84 ∧ 0 ≤ lon ∧ lon < 42)) :
    zoneOf lon = some (utmZone lat lon) ∧ origin lon {} = some (utmZone lat lon, utmOrigin (utmZone lat lon)) := by
  obtain ⟨z, z1, z2, z3, z4, z5, z6⟩ := C104_zone lon h1 h2
  have ht : trunc ((lon + 180) / 360) = 0 := by
    rw [trunc_nonneg _ (by linarith)]
    exact Int.floor_eq_iff.mpr ⟨by push_cast; linarith, by push_cast; linarith⟩
  have hf : fitLong lon = lon := by unfold fitLong; rw [ht]; push_cast; ring
  have hz : utmZone lat lon = z := by
    have hz' : trunc ((lon + 180) / 6) = z - 1 := by
      rw [trunc_nonneg _ (by linarith)]
      exact Int.floor_eq_iff.mpr ⟨by push_cast; linarith, by push_cast; linarith⟩
    unfold utmZone
    simp only [hf, hz']
    rw [if_neg hn]
    by_cases hb : 72 ≤ lat ∧ lat < 84
    · have hl : ¬ (0 ≤ lon ∧ lon < 42) := fun hl => hs ⟨hb.1, hb.2, hl⟩
      rw [if_pos hb, if_neg (fun h => hl ⟨h.1, by linarith [h.2]⟩), if_neg (fun h => hl ⟨by linarith [h.1], by linarith [h.2]⟩),
        if_neg (fun h => hl ⟨by linarith [h.1], by linarith [h.2]⟩), if_neg (fun h => hl ⟨by linarith [h.1], by linarith [h.2]⟩)]
      ring
    · rw [if_neg hb]; ring
  rw [hz, z1, z6]
  refine ⟨rfl, ?_⟩
  unfold utmOrigin
  congr 2
  ring

/-- C104: longitudes a full circle to the east are in the zone they are in: `LLtoUTM` takes the circle off. -/
theorem C104_utm_wraps (lat lon : ℝ) (h1 : -180 ≤ lon) : utmZone lat (lon + 360) = utmZone lat lon := by
  have ht : trunc ((lon + 360 + 180) / 360) = trunc ((lon + 180) / 360) + 1 := by
    rw [trunc_nonneg _ (by linarith), trunc_nonneg _ (by linarith), ← Int.floor_add_one]
    congr 1
    ring
  have hf : fitLong (lon + 360) = fitLong lon := by unfold fitLong; rw [ht]; push_cast; ring
  unfold utmZone
  rw [hf]

/-- Disagreement: it does not add the circle to longitudes below -180: those of zone 60 are put into zone 1. -/
theorem C104_utm_west (lon : ℝ) (h1 : -186 < lon) (h2 : lon < -180) : utmZone 0 lon = 1 ∧ utmZone 0 (lon + 360) = 60 := by
  have ht : trunc ((lon + 180) / 360) = 0 := by
    rw [trunc_neg _ (by linarith)]
    exact Int.ceil_eq_iff.mpr ⟨by push_cast; linarith, by push_cast; linarith⟩
  have hf : fitLong lon = lon := by unfold fitLong; rw [ht]; push_cast; ring
  have ht' : trunc ((lon + 360 + 180) / 360) = 0 := by
    rw [trunc_nonneg _ (by linarith)]
    exact Int.floor_eq_iff.mpr ⟨by push_cast; linarith, by push_cast; linarith⟩
  have hf' : fitLong (lon + 360) = lon + 360 := by unfold fitLong; rw [ht']; push_cast; ring
  have n1 : ¬ ((72 : ℝ) ≤ 0 ∧ (0 : ℝ) < 84) := by norm_num
  constructor
  · have hz : trunc ((lon + 180) / 6) = 0 := by
      rw [trunc_neg _ (by linarith)]
      exact Int.ceil_eq_iff.mpr ⟨by push_cast; linarith, by push_cast; linarith⟩
    unfold utmZone
    simp only [hf, hz]
    have n2 : ∀ q : Prop, ¬ ((56 : ℝ) ≤ 0 ∧ q) := fun q h => absurd h.1 (by norm_num)
    rw [if_neg n1, if_neg (n2 _)]
    rfl
  · have hz : trunc ((lon + 360 + 180) / 6) = 59 := by
      rw [trunc_nonneg _ (by linarith)]
      exact Int.floor_eq_iff.mpr ⟨by push_cast; linarith, by push_cast; linarith⟩
    unfold utmZone
    simp only [hf', hz]
    have n2 : ∀ q : Prop, ¬ ((56 : ℝ) ≤ 0 ∧ q) := fun q h => absurd h.1 (by norm_num)
    rw [if_neg n1, if_neg (n2 _)]
    rfl

end Verif.Proj
