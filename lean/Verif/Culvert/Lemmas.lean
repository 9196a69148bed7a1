import Verif.Culvert.Spec

namespace Verif.Culvert

open Real

theorem g_pos : 0 < g := by unfold g; norm_num

theorem sqrt_g : g ^ (0.5 : ℝ) = √g := by
  rw [Real.sqrt_eq_rpow]; norm_num

theorem sqrt_g_pos : 0 < √g := Real.sqrt_pos.mpr g_pos

theorem div?_eq (a : ℝ) {b : ℝ} (h : b ≠ 0) : div? a b = some (a / b) := if_neg h

/-- Losses per velocity squared. -/
noncomputable def lossRate (b : Barrel) (hyd : ℝ) : ℝ := b.sumLoss / 2 / g + b.manning ^ 2 * b.length / hyd ^ (1.33333 : ℝ)

theorem lossRate_pos {b : Barrel} (h : b.Ok) {hyd : ℝ} (hh : 0 < hyd) : 0 < lossRate b hyd := by
  have h1 : 0 < hyd ^ (1.33333 : ℝ) := rpow_pos_of_pos hh _
  have h2 : 0 ≤ b.sumLoss / 2 / g := div_nonneg (div_nonneg h.loss (by norm_num)) g_pos.le
  have h3 : 0 ≤ b.manning ^ 2 * b.length / hyd ^ (1.33333 : ℝ) := div_nonneg (mul_nonneg (sq_nonneg _) h.length) h1.le
  unfold lossRate
  rcases h.some with h' | ⟨h', h''⟩
  · have : 0 < b.sumLoss / 2 / g := div_pos (div_pos h' (by norm_num)) g_pos
    linarith
  · have : 0 < b.manning ^ 2 * b.length / hyd ^ (1.33333 : ℝ) := div_pos (mul_pos (by positivity) h'') h1
    linarith

theorem culvertVelocity_eq {b : Barrel} (h : b.Ok) {dH hyd : ℝ} (hd : 0 ≤ dH) (hh : 0 < hyd) :
    culvertVelocity b dH hyd = some (√(dH / lossRate b hyd)) := by
  unfold culvertVelocity
  rw [div?_eq _ (rpow_pos_of_pos hh _).ne']
  have hp := lossRate_pos h hh
  unfold lossRate at hp
  simp only [Option.bind_eq_bind, Option.bind_some]
  rw [div?_eq _ hp.ne']
  simp only [Option.bind_some]
  unfold sqrt?
  rw [if_neg (not_lt.mpr (div_nonneg hd hp.le))]
  rfl

theorem headLoss_eq (b : Barrel) (A P q : ℝ) : headLoss b A P q = lossRate b (A / P) * (q / A) ^ 2 := by
  unfold headLoss lossRate
  rw [div_div]

/-- Flows with a loss of at most `dH` are those up to `A` times the culvert velocity. -/
theorem headLoss_le_iff {b : Barrel} (h : b.Ok) {A P dH q : ℝ} (hA : 0 < A) (hP : 0 < P) (hd : 0 ≤ dH) (hq : 0 ≤ q) :
    headLoss b A P q ≤ dH ↔ q ≤ A * √(dH / lossRate b (A / P)) := by
  have hp := lossRate_pos h (div_pos hA hP)
  have hx : 0 ≤ dH / lossRate b (A / P) := div_nonneg hd hp.le
  rw [headLoss_eq, mul_comm, ← le_div_iff₀ hp, mul_comm A, ← div_le_iff₀ hA]
  exact (Real.le_sqrt (div_nonneg hq hA.le) hx).symm

/-! ## Box -/

/-- Flow allowed by the inlet. -/
noncomputable def Box.inlet (c : Box) (E : ℝ) : ℝ := min (c.weir E) (c.orifice E)

theorem Box.open_pos {c : Box} (h : c.Ok) : 0 < c.open := mul_pos (mul_pos (by linarith [h.blockage]) h.width) h.barrels

theorem Box.weir_pos {c : Box} (h : c.Ok) {E : ℝ} (hE : 0 < E) : 0 < c.weir E :=
  mul_pos (mul_pos (mul_pos (by norm_num) sqrt_g_pos) (c.open_pos h)) (rpow_pos_of_pos hE _)

theorem Box.orifice_pos {c : Box} (h : c.Ok) {E : ℝ} (hE : 0 < E) : 0 < c.orifice E :=
  mul_pos (mul_pos (mul_pos (mul_pos (by norm_num) sqrt_g_pos) (c.open_pos h)) (rpow_pos_of_pos h.height _)) (rpow_pos_of_pos hE _)

theorem Box.inlet_pos {c : Box} (h : c.Ok) {E : ℝ} (hE : 0 < E) : 0 < c.inlet E := lt_min (c.weir_pos h hE) (c.orifice_pos h hE)

/-- Critical depth of the inlet flow. -/
noncomputable def Box.crit (c : Box) (E : ℝ) : ℝ := (c.inlet E ^ 2 / g / c.open ^ 2) ^ (0.333333 : ℝ)

theorem Box.crit_pos {c : Box} (h : c.Ok) {E : ℝ} (hE : 0 < E) : 0 < c.crit E :=
  rpow_pos_of_pos (div_pos (div_pos (pow_pos (c.inlet_pos h hE) 2) g_pos) (pow_pos (c.open_pos h) 2)) _

/-- Depth, area and perimeter used. -/
noncomputable def Box.sect (c : Box) (E dH outD : ℝ) : ℝ × ℝ × ℝ :=
  if dH < E ∧ outD > c.height then (c.height, c.open * c.height, 2 * (c.open + c.height)) else boxSection c.open c.height (c.crit E)

theorem boxSection_pos {W h d : ℝ} (hW : 0 < W) (hh : 0 < h) (hd : 0 < d) :
    0 < (boxSection W h d).1 ∧ (boxSection W h d).1 ≤ h ∧ (boxSection W h d).2.1 = W * (boxSection W h d).1 ∧
      0 < (boxSection W h d).2.2 ∧ 0 < (boxSection W h d).2.1 := by
  unfold boxSection
  split_ifs with hx
  · exact ⟨hh, le_refl _, rfl, by positivity, by positivity⟩
  · exact ⟨hd, not_lt.mp hx, rfl, by positivity, by positivity⟩

theorem Box.sect_pos {c : Box} (h : c.Ok) {E : ℝ} (hE : 0 < E) (dH outD : ℝ) :
    0 < (c.sect E dH outD).1 ∧ (c.sect E dH outD).1 ≤ c.height ∧ (c.sect E dH outD).2.1 = c.open * (c.sect E dH outD).1 ∧
      0 < (c.sect E dH outD).2.2 ∧ 0 < (c.sect E dH outD).2.1 := by
  have hW := c.open_pos h
  have hh := h.height
  unfold Box.sect
  split_ifs with hx
  · exact ⟨hh, le_refl _, rfl, by positivity, by positivity⟩
  · exact boxSection_pos hW hh (c.crit_pos h hE)

/-- Discharge. -/
noncomputable def Box.flow (c : Box) (E dH outD : ℝ) : ℝ :=
  let s := c.sect E dH outD
  if dH < E then min (c.inlet E) (s.2.1 * √(dH / lossRate c.toBarrel (s.2.1 / s.2.2))) else c.inlet E

theorem boxFn_eq {c : Box} (h : c.Ok) {E dH : ℝ} (hE : 0 < E) (hd : 0 ≤ dH) (outD : ℝ) :
    let s := c.sect E dH outD
    boxFn c E dH outD = some ⟨c.flow E dH outD, c.flow E dH outD / (s.2.1 + vprot / s.2.1), s.1, s.2.1⟩ := by
  intro s
  have hW := c.open_pos h
  have hW' : (1 - c.blockage) * c.width * c.barrels = c.open := rfl
  obtain ⟨s1, s2, s3, s4, s5⟩ := c.sect_pos h hE dH outD
  obtain ⟨t1, t2, t3, t4, t5⟩ := boxSection_pos hW h.height (c.crit_pos h hE)
  have eQ : (if 0.544 * g ^ (0.5 : ℝ) * (1 - c.blockage) * c.width * c.barrels * E ^ (1.5 : ℝ) <
      0.702 * g ^ (0.5 : ℝ) * (1 - c.blockage) * c.width * c.barrels * c.height ^ (0.89 : ℝ) * E ^ (0.61 : ℝ) then
      0.544 * g ^ (0.5 : ℝ) * (1 - c.blockage) * c.width * c.barrels * E ^ (1.5 : ℝ) else
      0.702 * g ^ (0.5 : ℝ) * (1 - c.blockage) * c.width * c.barrels * c.height ^ (0.89 : ℝ) * E ^ (0.61 : ℝ)) = c.inlet E := by
    have e1 : 0.544 * g ^ (0.5 : ℝ) * (1 - c.blockage) * c.width * c.barrels * E ^ (1.5 : ℝ) = c.weir E := by
      unfold Box.weir; rw [sqrt_g, ← hW']; ring
    have e2 : 0.702 * g ^ (0.5 : ℝ) * (1 - c.blockage) * c.width * c.barrels * c.height ^ (0.89 : ℝ) * E ^ (0.61 : ℝ) = c.orifice E := by
      unfold Box.orifice; rw [sqrt_g, ← hW']; ring
    rw [e1, e2]
    unfold Box.inlet
    rw [min_def]
    split_ifs with h1 h2 h2 <;> first | rfl | (exfalso; linarith) | linarith
  unfold boxFn
  simp only
  rw [if_neg (not_le.mpr h.blockage), eQ, hW', div?_eq _ (pow_pos hW 2).ne']
  simp only [Option.bind_eq_bind, Option.bind_some]
  have hcr : (c.inlet E ^ 2 / g / c.open ^ 2) ^ (0.333333 : ℝ) = c.crit E := rfl
  rw [hcr, div?_eq _ t4.ne']
  simp only [Option.bind_some]
  rw [culvertVelocity_eq h.toOk hd (div_pos t5 t4)]
  simp only [Option.bind_some]
  by_cases hx : dH < E
  · have es : (if outD > c.height then (c.height, c.open * c.height, 2 * (c.open + c.height)) else boxSection c.open c.height (c.crit E)) = s := by
      show _ = c.sect E dH outD
      unfold Box.sect
      simp only [hx, true_and]
    simp only [if_pos hx, es]
    rw [div?_eq _ s4.ne']
    simp only [Option.bind_some]
    rw [culvertVelocity_eq h.toOk hd (div_pos s5 s4)]
    simp only [Option.bind_some]
    rw [div?_eq _ s5.ne']
    simp only [Option.bind_some]
    have hv : 0 < s.2.1 + vprot / s.2.1 := add_pos s5 (div_pos (by unfold vprot; norm_num) s5)
    rw [div?_eq _ hv.ne']
    unfold Box.flow
    simp only [if_pos hx]
    rfl
  · have es : boxSection c.open c.height (c.crit E) = s := by
      show _ = c.sect E dH outD
      unfold Box.sect
      simp only [hx, false_and, if_false]
    simp only [if_neg hx, es]
    rw [div?_eq _ s5.ne']
    simp only [Option.bind_some]
    have hv : 0 < s.2.1 + vprot / s.2.1 := add_pos s5 (div_pos (by unfold vprot; norm_num) s5)
    rw [div?_eq _ hv.ne']
    unfold Box.flow
    simp only [if_neg hx]
    rfl

end Verif.Culvert
