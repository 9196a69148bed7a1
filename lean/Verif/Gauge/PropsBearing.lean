import Verif.Gauge.Bearing
import Verif.Tools.PropsAngle

/-! # C98: the bearing of the flow -/

namespace Verif.Gauge

open Real

/-- `b` degrees is the bearing of the flow: its direction, clockwise from North. -/
def IsBearing (uh vh b : ℝ) : Prop :=
  0 ≤ b ∧ b < 360 ∧ ∃ L, 0 < L ∧ uh = L * sin (b * π / 180) ∧ vh = L * cos (b * π / 180)

/-- Every flow other than none has one bearing. -/
theorem bearing_exists (uh vh : ℝ) (h : ¬ (uh = 0 ∧ vh = 0)) : ∃ b, IsBearing uh vh b := by
  have h0 : ((vh, uh) : ℝ × ℝ) ≠ 0 := by
    intro hc
    simp [Prod.ext_iff] at hc
    exact h ⟨hc.2, hc.1⟩
  obtain ⟨t, -, t0, t1, tx, ty⟩ := Verif.Tools.C58_angle 0 (vh, uh) (1, 0) h0 (by simp)
  have l1 := Verif.Tools.len_pos _ h0
  have hl : Verif.Tools.len (1, 0) = 1 := by simp [Verif.Tools.len]
  have hp := pi_pos
  rw [hl] at tx ty
  unfold Verif.Tools.turn at tx ty
  simp only at tx ty
  refine ⟨t * 180 / π, by positivity, ?_, Verif.Tools.len (vh, uh), l1, ?_, ?_⟩
  · rw [div_lt_iff₀ hp]
    nlinarith
  · rw [show t * 180 / π * π / 180 = t by field_simp]
    linarith
  · rw [show t * 180 / π * π / 180 = t by field_simp]
    linarith

/-- **C98.** The exported bearing is the mirror image of the bearing of the flow: 180° for flow to the north and 0° for flow to the south; it is
right for flow due east and due west only. Without flow there is none. -/
theorem C98_bearing (eps uh vh b : ℝ) (hb : IsBearing uh vh b) :
    calcBearing eps uh vh = some (if b ≤ 180 then 180 - b else 540 - b) ∧ (calcBearing eps uh vh = some b ↔ b = 90 ∨ b = 270) ∧
      calcBearing eps 0 0 = none := by
  obtain ⟨b0, b1, L, hL, hu, hv⟩ := hb
  have hp := pi_pos
  set β := b * π / 180 with hβ
  have hsq := sin_sq_add_cos_sq β
  have hne : ¬ (uh = 0 ∧ vh = 0) := by
    rintro ⟨h1, h2⟩
    rw [hu] at h1
    rw [hv] at h2
    have h3 : sin β = 0 := by rcases mul_eq_zero.1 h1 with h | h; exacts [absurd h hL.ne', h]
    have h4 : cos β = 0 := by rcases mul_eq_zero.1 h2 with h | h; exacts [absurd h hL.ne', h]
    rw [h3, h4] at hsq
    norm_num at hsq
  have h0 : ((uh, vh) : ℝ × ℝ) ≠ 0 := by
    intro hc
    simp [Prod.ext_iff] at hc
    exact hne hc
  have hlen : Verif.Tools.len (uh, vh) = L := by
    unfold Verif.Tools.len
    simp only
    rw [hu, hv, show (L * sin β) ^ 2 + (L * cos β) ^ 2 = L ^ 2 * (sin β ^ 2 + cos β ^ 2) by ring, hsq, mul_one]
    exact sqrt_sq hL.le
  have hl2 : Verif.Tools.len (0, -1) = 1 := by simp [Verif.Tools.len]
  have hmain : calcBearing eps uh vh = some (if b ≤ 180 then 180 - b else 540 - b) := by
    unfold calcBearing
    rw [if_neg hne]
    have hval : ∀ t : ℝ, 0 ≤ t → t < 2 * π → sin t = sin β → cos t = - cos β → Verif.Tools.angle eps (uh, vh) (0, -1) = some t := by
      intro t t0 t1 hs hc
      apply Verif.Tools.C58_angle_unique eps (uh, vh) (0, -1) h0 (by simp) t t0 t1
      · rw [hlen, hl2]
        unfold Verif.Tools.turn
        simp only
        rw [hs, hu]
        ring
      · rw [hlen, hl2]
        unfold Verif.Tools.turn
        simp only
        rw [hc, hv]
        ring
    split_ifs with h
    · rw [hval (π - β) ?_ ?_ (sin_pi_sub β) (cos_pi_sub β)]
      · simp only [Option.map_some]
        congr 1
        rw [hβ]
        field_simp
      · rw [hβ]
        have : b * π / 180 ≤ π := by
          rw [div_le_iff₀ (by norm_num)]
          nlinarith
        linarith
      · have : 0 ≤ β := by rw [hβ]; positivity
        linarith
    · rw [hval (3 * π - β) ?_ ?_ ?_ ?_]
      · simp only [Option.map_some]
        congr 1
        rw [hβ]
        field_simp
        ring
      · rw [hβ]
        have : b * π / 180 ≤ 2 * π := by
          rw [div_le_iff₀ (by norm_num)]
          nlinarith
        linarith
      · have : π < β := by
          rw [hβ, lt_div_iff₀ (by norm_num)]
          nlinarith [not_le.1 h]
        linarith
      · rw [show 3 * π - β = (π - β) + 2 * π by ring, sin_add_two_pi, sin_pi_sub]
      · rw [show 3 * π - β = (π - β) + 2 * π by ring, cos_add_two_pi, cos_pi_sub]
  refine ⟨hmain, ?_, by simp [calcBearing]⟩
  rw [hmain, Option.some.injEq]
  split_ifs with h
  · constructor
    · intro hh
      left
      linarith
    · rintro (rfl | rfl)
      · norm_num
      · norm_num at h
  · constructor
    · intro hh
      right
      linarith
    · rintro (rfl | rfl)
      · norm_num at h
      · norm_num

/-- Flow to the north has bearing 0. -/
example : IsBearing 0 2 0 := ⟨le_rfl, by norm_num, 2, by norm_num, by simp, by simp⟩

/-- **C98.** Flow to the north is exported as 180°, to the south as 0°. -/
theorem C98_north : calcBearing 0 0 2 = some 180 ∧ calcBearing 0 0 (-2) = some 0 := by
  have h1 := (C98_bearing 0 0 2 0 ⟨le_rfl, by norm_num, 2, by norm_num, by simp, by simp⟩).1
  have h2 := (C98_bearing 0 0 (-2) 180 ⟨by norm_num, by norm_num, 2, by norm_num, by simp, by simp⟩).1
  constructor
  · rw [h1]; norm_num
  · rw [h2]; norm_num

end Verif.Gauge
