import Verif.Culvert.Lemmas
import Mathlib.Analysis.SpecialFunctions.Trigonometric.Bounds

namespace Verif.Culvert

open Real

/-! ## Pipe -/

theorem pipeOpen_pos {b : ℝ} (h0 : 0 ≤ b) (h1 : b < 1) : 0 < pipeOpen b := by
  unfold pipeOpen
  split_ifs with h
  · linarith
  · have : b ^ 2 ≤ b := by nlinarith
    norm_num at h ⊢
    nlinarith

theorem pipeOpen_le {b : ℝ} (h0 : 0 ≤ b) : pipeOpen b ≤ 1 := by
  unfold pipeOpen
  split_ifs with h
  · norm_num at h ⊢
    linarith
  · have : 0 ≤ b ^ 2 := sq_nonneg b
    norm_num
    linarith

noncomputable def Pipe.D (c : Pipe) : ℝ := pipeOpen c.blockage * c.diameter

theorem Pipe.D_pos {c : Pipe} (h : c.Ok) : 0 < c.D := mul_pos (pipeOpen_pos h.lower h.upper) h.diameter

noncomputable def Pipe.inlet (c : Pipe) (E : ℝ) : ℝ := min (c.weir c.D E) (c.orifice c.D E)

theorem Pipe.inlet_pos {c : Pipe} (h : c.Ok) {E : ℝ} (hE : 0 < E) : 0 < c.inlet E := by
  have hD := c.D_pos h
  have hb := h.barrels
  have hg := sqrt_g_pos
  have h1 : ∀ x : ℝ, 0 < c.D ^ x := fun x => rpow_pos_of_pos hD x
  have h2 : ∀ x : ℝ, 0 < E ^ x := fun x => rpow_pos_of_pos hE x
  refine lt_min ?_ ?_
  · exact mul_pos (mul_pos (mul_pos (mul_pos (by norm_num) hg) hb) (h1 _)) (h2 _)
  · exact mul_pos (mul_pos (mul_pos (mul_pos (by norm_num) hg) hb) (h1 _)) (h2 _)

theorem pipeDepth_pos {D Q : ℝ} (hD : 0 < D) (hQ : 0 < Q) : ∃ d, pipeDepth D Q = some d ∧ 0 < d := by
  have hb : 0 < Q / g ^ (0.5 : ℝ) * D ^ (2.5 : ℝ) := mul_pos (div_pos hQ (rpow_pos_of_pos g_pos _)) (rpow_pos_of_pos hD _)
  have h1 : ∀ k x : ℝ, 0 < k → 0 < D / k * (Q / g ^ (0.5 : ℝ) * D ^ (2.5 : ℝ)) ^ x := fun k x hk =>
    mul_pos (div_pos hD hk) (rpow_pos_of_pos hb _)
  unfold pipeDepth
  simp only [Option.bind_eq_bind]
  rw [div?_eq _ hD.ne']
  refine ⟨_, rfl, ?_⟩
  split_ifs
  · exact h1 _ _ (by norm_num)
  · exact h1 _ _ (by norm_num)

/-- Area of the full pipes. -/
noncomputable def fullArea (n D : ℝ) : ℝ := n * (D / 2) ^ 2 * π

theorem filled_full (n D : ℝ) : Filled n D D (n * (D / 2) ^ 2 * π) (n * D * π) := by
  refine ⟨2 * π, by positivity, le_rfl, ?_, ?_, by ring⟩
  · rw [mul_div_cancel_left₀ _ (two_ne_zero), Real.cos_pi]; ring
  · rw [Real.sin_two_pi]; ring

theorem pipeSection_pos {n D d : ℝ} (hn : 0 < n) (hD : 0 < D) (hd : 0 < d) :
    let s := pipeSection n D d
    (0 < s.1 ∧ s.1 ≤ D ∧ 0 < s.2.2 ∧ 0 < s.2.1 ∧ s.2.1 ≤ fullArea n D) ∧ Filled n D s.1 s.2.1 s.2.2 := by
  intro s
  have hpi := Real.pi_pos
  by_cases hx : d ≥ D
  · have e : s = (D, n * (D / 2) ^ 2 * π, n * D * π) := if_pos hx
    rw [e]
    exact ⟨⟨hD, le_refl _, by positivity, by positivity, le_refl _⟩, filled_full n D⟩
  · have e : s = (d, n * D ^ 2 / 8 * (arccos (1 - 2 * d / D) * 2 - sin (arccos (1 - 2 * d / D) * 2)),
        n * ((arccos (1 - 2 * d / D) * 2) * D / 2)) := if_neg hx
    have hd' : d < D := not_le.mp hx
    have h0 : 0 < arccos (1 - 2 * d / D) := by
      rw [Real.arccos_pos]
      have : 0 < 2 * d / D := by positivity
      linarith
    have h1 : arccos (1 - 2 * d / D) ≤ π := Real.arccos_le_pi _
    rw [e]
    have hs : sin (arccos (1 - 2 * d / D) * 2) < arccos (1 - 2 * d / D) * 2 := Real.sin_lt (by linarith)
    have hs' : -sin (arccos (1 - 2 * d / D) * 2) ≤ 2 * π - arccos (1 - 2 * d / D) * 2 := by
      have := Real.sin_le (x := 2 * π - arccos (1 - 2 * d / D) * 2) (by linarith)
      rw [Real.sin_two_pi_sub] at this
      exact this
    refine ⟨⟨hd, hd'.le, by positivity, mul_pos (by positivity) (by linarith), ?_⟩,
      arccos (1 - 2 * d / D) * 2, by linarith, by linarith, ?_, by ring, by ring⟩
    swap
    · have hx1 : 2 * d / D ≤ 2 := by rw [div_le_iff₀ hD]; linarith
      have hx0 : 0 < 2 * d / D := by positivity
      rw [mul_div_cancel_right₀ _ (two_ne_zero), Real.cos_arccos (by linarith) (by linarith)]
      show D / 2 - D / 2 * (1 - 2 * d / D) = d
      field_simp
      ring
    unfold fullArea
    have : n * D ^ 2 / 8 * (arccos (1 - 2 * d / D) * 2 - sin (arccos (1 - 2 * d / D) * 2)) ≤ n * D ^ 2 / 8 * (2 * π) :=
      mul_le_mul_of_nonneg_left (by linarith) (by positivity)
    calc _ ≤ n * D ^ 2 / 8 * (2 * π) := this
      _ = _ := by ring

/-- What `pipeFn` returns. -/
theorem pipeFn_spec {c : Pipe} (h : c.Ok) {E dH : ℝ} (hE : 0 < E) (hd : 0 ≤ dH) (outD : ℝ) :
    ∃ d A P, Filled c.barrels c.D d A P ∧ 0 < d ∧ d ≤ c.D ∧ 0 < A ∧ A ≤ fullArea c.barrels c.D ∧ 0 < P ∧
      (dH < E → outD > c.D → d = c.D ∧ A = fullArea c.barrels c.D ∧ P = c.barrels * c.D * π) ∧
      pipeFn c E dH outD = some ⟨min (c.inlet E) (A * √(dH / lossRate c.toBarrel (A / P))),
        min (c.inlet E) (A * √(dH / lossRate c.toBarrel (A / P))) / (A + vprot / A), d, A⟩ := by
  have hD := c.D_pos h
  have hpi := Real.pi_pos
  have hb := h.barrels
  obtain ⟨d0, hd0, hp0⟩ := pipeDepth_pos hD (c.inlet_pos h hE)
  have hfull : 0 < fullArea c.barrels c.D := by unfold fullArea; positivity
  obtain ⟨s, hs, hsf⟩ : ∃ s, s = (if dH < E ∧ outD > c.D then (c.D, c.barrels * (c.D / 2) ^ 2 * π, c.barrels * c.D * π)
      else pipeSection c.barrels c.D d0) ∧ (0 < s.1 ∧ s.1 ≤ c.D ∧ 0 < s.2.2 ∧ 0 < s.2.1 ∧ s.2.1 ≤ fullArea c.barrels c.D) ∧
      Filled c.barrels c.D s.1 s.2.1 s.2.2 := by
    refine ⟨_, rfl, ?_⟩
    split_ifs with hx
    · exact ⟨⟨hD, le_refl _, by positivity, hfull, le_refl _⟩, filled_full _ _⟩
    · exact pipeSection_pos hb hD hp0
  obtain ⟨⟨s1, s2, s3, s4, s5⟩, s6⟩ := hsf
  refine ⟨s.1, s.2.1, s.2.2, s6, s1, s2, s4, s5, s3, ?_, ?_⟩
  · intro a b
    rw [hs, if_pos ⟨a, b⟩]
    exact ⟨rfl, rfl, rfl⟩
  · have eQ : min (c.barrels * (0.421 * g ^ (0.5 : ℝ) * (pipeOpen c.blockage * c.diameter) ^ (0.87 : ℝ) * E ^ (1.63 : ℝ)))
        (c.barrels * (0.530 * g ^ (0.5 : ℝ) * (pipeOpen c.blockage * c.diameter) ^ (1.87 : ℝ) * E ^ (0.63 : ℝ))) = c.inlet E := by
      unfold Pipe.inlet Pipe.weir Pipe.orifice
      rw [sqrt_g]
      congr 1
      · show _ = 0.421 * √g * c.barrels * (pipeOpen c.blockage * c.diameter) ^ (0.87 : ℝ) * E ^ (1.63 : ℝ); ring
      · show _ = 0.530 * √g * c.barrels * (pipeOpen c.blockage * c.diameter) ^ (1.87 : ℝ) * E ^ (0.63 : ℝ); ring
    have eD : pipeOpen c.blockage * c.diameter = c.D := rfl
    unfold pipeFn
    rw [if_neg (not_le.mpr h.upper)]
    simp only
    rw [eQ, eD, hd0]
    simp only [Option.bind_eq_bind, Option.bind_some, ← hs]
    rw [div?_eq _ s3.ne']
    simp only [Option.bind_some]
    rw [culvertVelocity_eq h.toOk hd (div_pos s4 s3)]
    simp only [Option.bind_some]
    rw [div?_eq _ s4.ne']
    simp only [Option.bind_some]
    have hv : 0 < s.2.1 + vprot / s.2.1 := add_pos s4 (div_pos (by unfold vprot; norm_num) s4)
    rw [div?_eq _ hv.ne']
    rfl

/-! ## Trapezoid -/

theorem weirArea_pos {c : Weir} (h : c.Ok) {d : ℝ} (hd : 0 < d) : 0 < weirArea c d := by
  have := h.width; have := h.barrels; have := h.z1; have := h.z2
  have hb : 0 < 1 - c.blockage := by linarith [h.blockage]
  unfold weirArea
  have h1 : 0 < (1 - c.blockage) * c.barrels * c.width * d := by positivity
  have h2 : 0 ≤ 0.5 * (c.z1 + c.z2) * d ^ 2 := by positivity
  linarith

theorem weirBanks_nonneg (c : Weir) (d : ℝ) : 0 ≤ weirBanks c d := by
  unfold weirBanks
  exact add_nonneg (rpow_nonneg (by positivity) _) (rpow_nonneg (by positivity) _)

/-- Width of the bottom of all barrels together. -/
def Weir.bottom (c : Weir) : ℝ := (1 - c.blockage) * c.barrels * c.width

theorem Weir.bottom_pos {c : Weir} (h : c.Ok) : 0 < c.bottom :=
  mul_pos (mul_pos (by linarith [h.blockage]) h.barrels) h.width

theorem weir_inlet {c : Weir} (h : c.Ok) {E : ℝ} (hE : 0 < E) : 0 < c.weir E ∧ 0 < c.orifice E := by
  have hw := h.width; have hh := h.height; have hb := h.barrels; have h1 := h.z1; have h2 := h.z2
  have hbl : 0 < 1 - c.blockage := by linarith [h.blockage]
  have hm : 0 < c.meanWidth := by
    unfold Weir.meanWidth
    have : 0 ≤ c.height * (c.z1 + c.z2) / 2 := by positivity
    linarith
  constructor
  · unfold Weir.weir
    have := rpow_pos_of_pos hE (1.5 : ℝ)
    positivity
  · unfold Weir.orifice
    have := Real.sqrt_pos.mpr hE
    have := sqrt_g_pos
    positivity

theorem weirFn_spec {crit : ℝ → ℝ} (hcr : ∀ q, 0 ≤ q → 0 < crit q) {c : Weir} (h : c.Ok) {E dH : ℝ} (hE : 0 < E) (hd : 0 ≤ dH)
    (outD : ℝ) : ∃ f, weirFn crit c E dH outD = some f ∧ 0 < f.depth ∧ f.depth ≤ c.height ∧ f.area = weirArea c f.depth ∧
      0 ≤ f.Q ∧ f.Q ≤ c.weir E ∧ f.Q ≤ c.orifice E ∧ f.vel = f.Q / (f.area + vprot / f.area) ∧
      (dH < E → f.Q ≤ f.area * √(dH / lossRate c.toBarrel (f.area / (c.bottom + weirBanks c f.depth)))) ∧
      (E ≤ dH → f.Q = min (c.weir E) (c.orifice E)) ∧ (0 < dH → 0 < f.Q) := by
  have hb := c.bottom_pos h
  have hh := h.height
  obtain ⟨q1, q2⟩ := weir_inlet h hE
  have hQ : 0 < min (c.weir E) (c.orifice E) := lt_min q1 q2
  have hcl : ∀ q, 0 ≤ q → 0 < (if crit q > c.height then c.height else crit q) ∧ (if crit q > c.height then c.height else crit q) ≤ c.height := by
    intro q hq
    split_ifs with hx
    · exact ⟨hh, le_refl _⟩
    · exact ⟨hcr q hq, not_lt.mp hx⟩
  have eQ : (if 1.7 * (1 - c.blockage) * c.barrels * ((2 * c.width + c.height * (c.z1 + c.z2)) / 2) * E ^ (1.5 : ℝ) <
      0.8 * (1 - c.blockage) * c.barrels * g ^ (0.5 : ℝ) * (0.5 * c.height * (2 * c.width + c.height * (c.z1 + c.z2))) * E ^ (0.5 : ℝ) then
      1.7 * (1 - c.blockage) * c.barrels * ((2 * c.width + c.height * (c.z1 + c.z2)) / 2) * E ^ (1.5 : ℝ) else
      0.8 * (1 - c.blockage) * c.barrels * g ^ (0.5 : ℝ) * (0.5 * c.height * (2 * c.width + c.height * (c.z1 + c.z2))) * E ^ (0.5 : ℝ)) =
      min (c.weir E) (c.orifice E) := by
    have e1 : 1.7 * (1 - c.blockage) * c.barrels * ((2 * c.width + c.height * (c.z1 + c.z2)) / 2) * E ^ (1.5 : ℝ) = c.weir E := by
      unfold Weir.weir Weir.meanWidth; ring
    have e2 : 0.8 * (1 - c.blockage) * c.barrels * g ^ (0.5 : ℝ) * (0.5 * c.height * (2 * c.width + c.height * (c.z1 + c.z2))) * E ^ (0.5 : ℝ) =
        c.orifice E := by
      unfold Weir.orifice Weir.meanWidth
      rw [sqrt_g, Real.sqrt_eq_rpow E]
      rw [show (0.5 : ℝ) = 1 / 2 by norm_num]
      ring
    rw [e1, e2, min_def]
    split_ifs with h1 h2 h2 <;> first | rfl | (exfalso; linarith) | linarith
  unfold weirFn
  rw [if_neg (not_le.mpr h.blockage)]
  simp only
  rw [eQ]
  generalize hQd : min (c.weir E) (c.orifice E) = Q at *
  have hQ1 : Q ≤ c.weir E := hQd ▸ min_le_left _ _
  have hQ2 : Q ≤ c.orifice E := hQd ▸ min_le_right _ _
  obtain ⟨d, hde⟩ : ∃ d, d = (if crit Q > c.height then c.height else crit Q) := ⟨_, rfl⟩
  obtain ⟨d1, d2⟩ := hcl Q hQ.le
  rw [← hde] at d1 d2
  have hP : 0 < 2 * c.bottom + (c.z1 + c.z2) * d + weirBanks c d := by
    have h1 := h.z1; have h2 := h.z2; have h3 := weirBanks_nonneg c d
    positivity
  have hA := weirArea_pos h d1
  rw [← hde]
  have ebot : (1 - c.blockage) * c.barrels * c.width = c.bottom := rfl
  rw [ebot, div?_eq _ hP.ne']
  simp only [Option.bind_eq_bind, Option.bind_some]
  rw [culvertVelocity_eq h.toOk hd (div_pos hA hP)]
  simp only [Option.bind_some]
  have hv : ∀ A, 0 < A → A + vprot / A ≠ 0 := fun A hA => (add_pos hA (div_pos (by unfold vprot; norm_num) hA)).ne'
  by_cases hx : dH < E
  · rw [if_pos hx]
    obtain ⟨Q', hQ'⟩ : ∃ Q', Q' = (if outD > c.height then Q else
        min Q (weirArea c d * √(dH / lossRate c.toBarrel (weirArea c d / (2 * c.bottom + (c.z1 + c.z2) * d + weirBanks c d))))) := ⟨_, rfl⟩
    have hQ0 : 0 ≤ Q' ∧ Q' ≤ Q := by
      rw [hQ']
      split_ifs
      · exact ⟨hQ.le, le_refl _⟩
      · exact ⟨le_min hQ.le (by positivity), min_le_left _ _⟩
    rw [← hQ']
    obtain ⟨e, hee⟩ : ∃ e, e = (if outD > c.height then c.height else if crit Q' > c.height then c.height else crit Q') := ⟨_, rfl⟩
    have e12 : 0 < e ∧ e ≤ c.height := by
      rw [hee]
      split_ifs with hy hz
      · exact ⟨hh, le_refl _⟩
      · exact ⟨hh, le_refl _⟩
      · exact ⟨hcr _ hQ0.1, not_lt.mp hz⟩
    rw [← hee]
    have hP' : 0 < c.bottom + weirBanks c e := by have := weirBanks_nonneg c e; linarith
    have hA' := weirArea_pos h e12.1
    rw [div?_eq _ hP'.ne']
    simp only [Option.bind_some]
    rw [culvertVelocity_eq h.toOk hd (div_pos hA' hP')]
    simp only [Option.bind_some]
    rw [div?_eq _ hA'.ne']
    simp only [Option.bind_some]
    rw [div?_eq _ (hv _ hA')]
    refine ⟨_, rfl, e12.1, e12.2, rfl, le_min hQ0.1 (by positivity), ((min_le_left _ _).trans hQ0.2).trans hQ1,
      ((min_le_left _ _).trans hQ0.2).trans hQ2, rfl, fun _ => min_le_right _ _, fun hh => absurd hx (not_lt.mpr hh),
      fun hp => lt_min ?_ (mul_pos hA' (Real.sqrt_pos.mpr (div_pos hp (lossRate_pos h.toOk (div_pos hA' hP')))))⟩
    rw [hQ']
    split_ifs
    · exact hQ
    · exact lt_min hQ (mul_pos hA (Real.sqrt_pos.mpr (div_pos hp (lossRate_pos h.toOk (div_pos hA hP)))))
  · rw [if_neg hx]
    rw [div?_eq _ hA.ne']
    simp only [Option.bind_some]
    rw [div?_eq _ (hv _ hA)]
    exact ⟨_, rfl, d1, d2, rfl, hQ.le, hQ1, hQ2, rfl, fun hh => absurd hh hx, fun _ => rfl, fun _ => hQ⟩

end Verif.Culvert
