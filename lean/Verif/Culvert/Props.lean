import Verif.Culvert.LemmasPipe

/-!
# C70: discharge through boxes, pipes and trapezoids
-/

namespace Verif.Culvert

open Real

/-! ## Box -/

theorem Box.sect_full {c : Box} {E dH outD : ℝ} (h : c.Full E dH outD) :
    c.sect E dH outD = (c.height, c.open * c.height, c.fullPerimeter) := by
  unfold Box.sect
  split_ifs with hx
  · rfl
  · rcases h with h | h
    · exact if_pos h
    · exact absurd h hx

theorem Box.sect_open {c : Box} {E dH outD : ℝ} (h : ¬ c.Full E dH outD) :
    c.sect E dH outD = (c.critical E, c.open * c.critical E, c.wetPerimeter (c.critical E)) := by
  unfold Box.sect
  rw [if_neg (fun hx => h (Or.inr hx))]
  exact if_neg (fun hx => h (Or.inl hx))

/-- The discharge of a box is the largest that the two inlet formulas allow and that, when the water level difference is smaller than the
depth of energy at the inlet, does not lose more head in the barrels than there is. The barrels are filled to the critical depth, or
full. -/
theorem C70_box {c : Box} (h : c.Ok) {E dH : ℝ} (hE : 0 < E) (hd : 0 ≤ dH) (outD : ℝ) :
    ∃ f P, boxFn c E dH outD = some f ∧
      (c.Full E dH outD → f.depth = c.height ∧ P = c.fullPerimeter) ∧
      (¬ c.Full E dH outD → f.depth = c.critical E ∧ P = c.wetPerimeter f.depth) ∧
      0 < f.depth ∧ f.depth ≤ c.height ∧ f.area = c.open * f.depth ∧
      IsGreatest {q | 0 ≤ q ∧ q ≤ c.weir E ∧ q ≤ c.orifice E ∧ (dH < E → headLoss c.toBarrel f.area P q ≤ dH)} f.Q ∧
      0 ≤ f.vel ∧ f.vel * f.area ≤ f.Q ∧ f.vel * (f.area + vprot / f.area) = f.Q := by
  obtain ⟨s1, s2, s3, s4, s5⟩ := c.sect_pos h hE dH outD
  have hv : 0 < vprot / (c.sect E dH outD).2.1 := div_pos (by unfold vprot; norm_num) s5
  have hin := (c.inlet_pos h hE).le
  have hQ : 0 ≤ c.flow E dH outD := by
    unfold Box.flow
    simp only
    split_ifs
    · exact le_min hin (mul_nonneg s5.le (Real.sqrt_nonneg _))
    · exact hin
  refine ⟨_, (c.sect E dH outD).2.2, boxFn_eq h hE hd outD, ?_, ?_, s1, s2, s3, ?_, ?_, ?_, ?_⟩
  · intro hf
    rw [c.sect_full hf]
    exact ⟨rfl, rfl⟩
  · intro hf
    rw [c.sect_open hf]
    exact ⟨rfl, rfl⟩
  · constructor
    · refine ⟨hQ, ?_, ?_, ?_⟩
      · show c.flow E dH outD ≤ _
        unfold Box.flow
        simp only
        split_ifs
        · exact (min_le_left _ _).trans (min_le_left _ _)
        · exact min_le_left _ _
      · show c.flow E dH outD ≤ _
        unfold Box.flow
        simp only
        split_ifs
        · exact (min_le_left _ _).trans (min_le_right _ _)
        · exact min_le_right _ _
      · intro hx
        rw [headLoss_le_iff h.toOk s5 s4 hd hQ]
        unfold Box.flow
        simp only
        rw [if_pos hx]
        exact min_le_right _ _
    · rintro q ⟨q0, q1, q2, q3⟩
      show q ≤ c.flow E dH outD
      unfold Box.flow
      simp only
      split_ifs with hx
      · exact le_min (le_min q1 q2) ((headLoss_le_iff h.toOk s5 s4 hd q0).mp (q3 hx))
      · exact le_min q1 q2
  · exact div_nonneg hQ (by linarith)
  · rw [div_mul_eq_mul_div, div_le_iff₀ (by linarith)]
    exact mul_le_mul_of_nonneg_left (by linarith) hQ
  · exact div_mul_cancel₀ _ (add_pos s5 hv).ne'

/-- A blocked box lets nothing through; nor does any box without a difference of levels. -/
theorem C70_box_no_flow (c : Box) (E dH outD : ℝ) :
    (1 ≤ c.blockage → ∃ f, boxFn c E dH outD = some f ∧ f.Q = 0 ∧ f.vel = 0) ∧
    (c.Ok → 0 < E → dH = 0 → ∃ f, boxFn c E dH outD = some f ∧ f.Q = 0 ∧ f.vel = 0) := by
  constructor
  · intro hb
    exact ⟨_, if_pos hb, rfl, rfl⟩
  · intro h hE hd
    subst hd
    have e : c.flow E 0 outD = 0 := by
      unfold Box.flow
      simp only
      rw [if_pos hE, zero_div, Real.sqrt_zero, mul_zero, min_eq_right (c.inlet_pos h hE).le]
    refine ⟨_, boxFn_eq h hE le_rfl outD, e, ?_⟩
    show c.flow E 0 outD / _ = 0
    rw [e, zero_div]

theorem crit_eq {c : Box} (h : c.Ok) (E : ℝ) :
    c.critical E = (min (0.544 * E ^ (1.5 : ℝ)) (0.702 * c.height ^ (0.89 : ℝ) * E ^ (0.61 : ℝ)) ^ 2) ^ (0.333333 : ℝ) := by
  unfold Box.critical
  congr 1
  have hW := c.open_pos h
  have e : min (c.weir E) (c.orifice E) = √g * c.open * min (0.544 * E ^ (1.5 : ℝ)) (0.702 * c.height ^ (0.89 : ℝ) * E ^ (0.61 : ℝ)) := by
    rw [mul_min_of_nonneg _ _ (mul_pos sqrt_g_pos hW).le]
    unfold Box.weir Box.orifice
    congr 1 <;> ring
  rw [e, mul_pow, mul_pow, Real.sq_sqrt g_pos.le]
  have := g_pos
  field_simp

theorem inlet_mono {c c' : Box} (h : c.Ok) (h' : c'.Ok) (hw : c.Wider c') {E E' : ℝ} (hE : 0 < E) (hEE : E ≤ E') : c.inlet E ≤ c'.inlet E' := by
  have hg := sqrt_g_pos
  have hW := c.open_pos h
  have hW' := c'.open_pos h'
  have hh := rpow_pos_of_pos h.height (0.89 : ℝ)
  have h1 : ∀ x : ℝ, 0 ≤ x → E ^ x ≤ E' ^ x := fun x hx => rpow_le_rpow hE.le hEE hx
  have h2 : ∀ x : ℝ, 0 < E ^ x := fun x => rpow_pos_of_pos hE x
  have hwo := hw.width
  have h15 := h1 1.5 (by norm_num)
  have h61 := h1 0.61 (by norm_num)
  have p15 := h2 1.5
  have p61 := h2 0.61
  refine min_le_min ?_ ?_
  · unfold Box.weir
    gcongr
  · unfold Box.orifice
    rw [hw.height]
    gcongr

theorem critical_mono {c c' : Box} (h : c.Ok) (h' : c'.Ok) (hw : c.Wider c') {E E' : ℝ} (hE : 0 < E) (hEE : E ≤ E') :
    c.critical E ≤ c'.critical E' := by
  rw [crit_eq h, crit_eq h', hw.height]
  have hh := rpow_pos_of_pos h.height (0.89 : ℝ)
  have p15 := rpow_pos_of_pos hE (1.5 : ℝ)
  have p61 := rpow_pos_of_pos hE (0.61 : ℝ)
  have h15 : E ^ (1.5 : ℝ) ≤ E' ^ (1.5 : ℝ) := rpow_le_rpow hE.le hEE (by norm_num)
  have h61 : E ^ (0.61 : ℝ) ≤ E' ^ (0.61 : ℝ) := rpow_le_rpow hE.le hEE (by norm_num)
  refine rpow_le_rpow (sq_nonneg _) ?_ (by norm_num)
  refine pow_le_pow_left₀ (le_min (by positivity) (by positivity)) ?_ 2
  refine min_le_min ?_ ?_ <;> gcongr

theorem barrel_mono {b b' : Barrel} (h : b.Ok) (h' : b'.Ok) (hl : b'.sumLoss ≤ b.sumLoss)
    (hf : b'.manning ^ 2 * b'.length ≤ b.manning ^ 2 * b.length) {A A' R R' dH dH' : ℝ} (hA : 0 < A) (hR : 0 < R) (hd : 0 ≤ dH)
    (hAA : A ≤ A') (hRR : R ≤ R') (hdd : dH ≤ dH') : A * √(dH / lossRate b R) ≤ A' * √(dH' / lossRate b' R') := by
  have hR' : 0 < R' := hR.trans_le hRR
  have l' := lossRate_pos h' hR'
  have hp := rpow_pos_of_pos hR (1.33333 : ℝ)
  have hpp : R ^ (1.33333 : ℝ) ≤ R' ^ (1.33333 : ℝ) := rpow_le_rpow hR.le hRR (by norm_num)
  have hl' : lossRate b' R' ≤ lossRate b R := by
    unfold lossRate
    have := g_pos
    have hn : 0 ≤ b'.manning ^ 2 * b'.length := mul_nonneg (sq_nonneg _) h'.length
    have hn' : 0 ≤ b.manning ^ 2 * b.length := mul_nonneg (sq_nonneg _) h.length
    gcongr
  refine mul_le_mul hAA (Real.sqrt_le_sqrt (div_le_div₀ (hd.trans hdd) hdd l' hl')) (Real.sqrt_nonneg _) (hA.trans_le hAA).le

theorem radius_open {W W' d d' : ℝ} (hW : 0 < W) (hd : 0 < d) (hWW : W ≤ W') (hdd : d ≤ d') :
    W * d / (W + 2 * d) ≤ W' * d' / (W' + 2 * d') := by
  have hW' := hW.trans_le hWW
  have hd' := hd.trans_le hdd
  rw [div_le_div_iff₀ (by linarith) (by linarith)]
  have h1 : W * d * W' ≤ W * d' * W' := by gcongr
  have h2 : 2 * (W * d * d') ≤ 2 * (W' * d * d') := by gcongr
  nlinarith

theorem radius_full {W W' h : ℝ} (hW : 0 < W) (hh : 0 < h) (hWW : W ≤ W') : W * h / (2 * (W + h)) ≤ W' * h / (2 * (W' + h)) := by
  have hW' := hW.trans_le hWW
  rw [div_le_div_iff₀ (by linarith) (by linarith)]
  have h2 : W * h * h ≤ W' * h * h := by gcongr
  nlinarith

/-- A box that is not narrower, not rougher and has not more losses, under not less energy at the inlet and not less difference of levels,
lets not less through, as long as the barrels run full in both cases or in neither. -/
theorem C70_box_monotone {c c' : Box} (h : c.Ok) (h' : c'.Ok) (hw : c.Wider c') {E E' dH dH' outD outD' : ℝ} (hE : 0 < E) (hEE : E ≤ E')
    (hd : 0 ≤ dH) (hdd : dH ≤ dH') (hfull : c.Full E dH outD ↔ c'.Full E' dH' outD') (hctl : dH' < E' → dH < E) :
    ∃ f f', boxFn c E dH outD = some f ∧ boxFn c' E' dH' outD' = some f' ∧ f.Q ≤ f'.Q := by
  refine ⟨_, _, boxFn_eq h hE hd outD, boxFn_eq h' (hE.trans_le hEE) (hd.trans hdd) outD', ?_⟩
  have hi := inlet_mono h h' hw hE hEE
  have hW := c.open_pos h
  obtain ⟨s1, s2, s3, s4, s5⟩ := c.sect_pos h hE dH outD
  show c.flow E dH outD ≤ c'.flow E' dH' outD'
  by_cases hx : dH' < E'
  · have hx0 := hctl hx
    unfold Box.flow
    simp only
    rw [if_pos hx, if_pos hx0]
    refine min_le_min hi (barrel_mono h.toOk h'.toOk hw.loss hw.friction s5 (div_pos s5 s4) hd ?_ ?_ hdd)
    · by_cases hf : c.Full E dH outD
      · rw [c.sect_full hf, c'.sect_full (hfull.mp hf), hw.height]
        exact mul_le_mul_of_nonneg_right hw.width h.height.le
      · rw [c.sect_open hf, c'.sect_open (fun hh => hf (hfull.mpr hh))]
        exact mul_le_mul hw.width (critical_mono h h' hw hE hEE) (c.crit_pos h hE).le (hW.trans_le hw.width).le
    · by_cases hf : c.Full E dH outD
      · rw [c.sect_full hf, c'.sect_full (hfull.mp hf), hw.height]
        unfold Box.fullPerimeter
        rw [hw.height]
        exact radius_full hW h.height hw.width
      · rw [c.sect_open hf, c'.sect_open (fun hh => hf (hfull.mpr hh))]
        exact radius_open hW (c.crit_pos h hE) hw.width (critical_mono h h' hw hE hEE)
  · have : c'.flow E' dH' outD' = c'.inlet E' := if_neg hx
    rw [this]
    refine le_trans ?_ hi
    unfold Box.flow
    simp only
    split_ifs
    · exact min_le_left _ _
    · exact le_rfl

/-- Fixed levels: widening, smoothing or shortening a box does not make it carry less. -/
theorem C70_box_wider {c c' : Box} (h : c.Ok) (h' : c'.Ok) (hw : c.Wider c') {E dH : ℝ} (hE : 0 < E) (hd : 0 ≤ dH) (outD : ℝ) :
    ∃ f f', boxFn c E dH outD = some f ∧ boxFn c' E dH outD = some f' ∧ f.Q ≤ f'.Q := by
  refine C70_box_monotone h h' hw hE le_rfl hd le_rfl ?_ id
  unfold Box.Full
  rw [crit_eq h, crit_eq h', hw.height]

theorem sq_g : (√g) ^ 2 = g := Real.sq_sqrt g_pos.le

/-- At the energy where the barrels begin to run full the discharge falls: the wetted perimeter jumps by the width of the roof. Here a
box of one by one, with a difference of levels of 1: at `E` it carries `q1`, at any greater energy `q2 < q1`. -/
theorem C70_more_headwater_less_flow : ∃ (c : Box) (E q1 q2 : ℝ), c.Ok ∧ 1 < E ∧ q2 < q1 ∧
    (∃ f, boxFn c E 1 0 = some f ∧ f.Q = q1) ∧ ∀ E', E < E' → ∃ f, boxFn c E' 1 0 = some f ∧ f.Q = q2 := by
  let c : Box := ⟨⟨1, 0, 1⟩, 1, 1, 0, 1⟩
  have hok : c.Ok :=
    { loss := le_refl (0 : ℝ), length := (zero_le_one : (0 : ℝ) ≤ 1), some := Or.inr ⟨(one_ne_zero : (1 : ℝ) ≠ 0), (zero_lt_one : (0 : ℝ) < 1)⟩,
      width := (zero_lt_one : (0 : ℝ) < 1), height := (zero_lt_one : (0 : ℝ) < 1), barrels := (zero_lt_one : (0 : ℝ) < 1),
      blockage := (zero_lt_one : (0 : ℝ) < 1) }
  have hopen : c.open = 1 := by show (1 - 0) * 1 * 1 = (1 : ℝ); norm_num
  have hheight : c.height = 1 := rfl
  let x : ℝ := 1000 / 702
  have hx1 : 1 < x := by norm_num [x]
  let E : ℝ := x ^ (100 / 61 : ℝ)
  have hE1 : 1 < E := Real.one_lt_rpow hx1 (by norm_num)
  have hE0 : 0 < E := by linarith
  have hE61 : E ^ (0.61 : ℝ) = x := by
    show (x ^ (100 / 61 : ℝ)) ^ (0.61 : ℝ) = x
    rw [← Real.rpow_mul (by linarith)]
    norm_num
  have hE15 : 1 < 0.544 * E ^ (1.5 : ℝ) := by
    have h1 : x ^ (2 : ℝ) ≤ E ^ (1.5 : ℝ) := by
      show x ^ (2 : ℝ) ≤ (x ^ (100 / 61 : ℝ)) ^ (1.5 : ℝ)
      rw [← Real.rpow_mul (by linarith)]
      exact Real.rpow_le_rpow_of_exponent_le hx1.le (by norm_num)
    have h2 : x ^ (2 : ℝ) = x ^ 2 := by norm_cast
    rw [h2] at h1
    have h3 : (2 : ℝ) < x ^ 2 := by norm_num [x]
    norm_num
    linarith
  have hone : (1 : ℝ) ^ (0.89 : ℝ) = 1 := Real.one_rpow _
  have hcE : c.critical E = 1 := by
    rw [crit_eq hok, hheight, hone, hE61]
    have : (0.702 : ℝ) * 1 * x = 1 := by norm_num [x]
    rw [this, min_eq_right hE15.le]
    norm_num
  have hcE' : ∀ E', E < E' → 1 < c.critical E' := by
    intro E' hlt
    rw [crit_eq hok, hheight, hone]
    refine Real.one_lt_rpow ?_ (by norm_num)
    have h1 : E ^ (0.61 : ℝ) < E' ^ (0.61 : ℝ) := Real.rpow_lt_rpow hE0.le hlt (by norm_num)
    have h2 : E ^ (1.5 : ℝ) < E' ^ (1.5 : ℝ) := Real.rpow_lt_rpow hE0.le hlt (by norm_num)
    have h3 : 1 < min (0.544 * E' ^ (1.5 : ℝ)) (0.702 * 1 * E' ^ (0.61 : ℝ)) := by
      refine lt_min (hE15.trans (by norm_num at h2 ⊢; linarith)) ?_
      rw [hE61] at h1
      have : (0.702 : ℝ) * 1 * x = 1 := by norm_num [x]
      rw [← this]
      norm_num at h1 ⊢
      linarith
    nlinarith
  have hin : 1 ≤ c.inlet E := by
    have hg : (1 : ℝ) ≤ √g := by rw [Real.one_le_sqrt]; unfold g; norm_num
    refine hg.trans (le_min ?_ ?_)
    · unfold Box.weir
      rw [hopen]
      have := sqrt_g_pos
      calc √g = √g * 1 := by ring
        _ ≤ √g * (0.544 * E ^ (1.5 : ℝ)) := by gcongr
        _ = _ := by ring
    · unfold Box.orifice
      rw [hopen, hheight, hone, hE61]
      have : (0.702 : ℝ) * √g * 1 * 1 * x = √g := by norm_num [x]; ring
      exact this.ge
  have hloss : ∀ R : ℝ, 0 < R → R ≤ 1 → 1 * √(1 / lossRate c.toBarrel R) = √(R ^ (1.33333 : ℝ)) ∧ √(R ^ (1.33333 : ℝ)) ≤ 1 := by
    intro R hR hR1
    constructor
    · rw [one_mul]
      congr 1
      show 1 / (0 / 2 / g + 1 ^ 2 * 1 / R ^ (1.33333 : ℝ)) = R ^ (1.33333 : ℝ)
      rw [zero_div, zero_div, zero_add, one_pow, mul_one, one_div_one_div]
    · exact Real.sqrt_le_one.mpr (Real.rpow_le_one hR.le hR1 (by norm_num))
  refine ⟨c, E, √((1 / 3) ^ (1.33333 : ℝ)), √((1 / 4) ^ (1.33333 : ℝ)), hok, hE1, ?_, ?_, ?_⟩
  · exact Real.sqrt_lt_sqrt (by positivity) (Real.rpow_lt_rpow (by norm_num) (by norm_num) (by norm_num))
  · have hnf : ¬ c.Full E 1 0 := by
      rintro (hh | ⟨-, hh⟩)
      · rw [hcE, hheight] at hh
        exact lt_irrefl _ hh
      · rw [hheight] at hh
        norm_num at hh
    refine ⟨_, boxFn_eq hok hE0 zero_le_one 0, ?_⟩
    show c.flow E 1 0 = _
    unfold Box.flow
    simp only
    rw [if_pos hE1, c.sect_open hnf, hcE, hopen]
    unfold Box.wetPerimeter
    rw [hopen]
    have e : (1 : ℝ) * 1 / (1 + 2 * 1) = 1 / 3 := by norm_num
    simp only
    rw [e, mul_one, (hloss (1 / 3) (by norm_num) (by norm_num)).1]
    exact min_eq_right ((hloss (1 / 3) (by norm_num) (by norm_num)).2.trans hin)
  · intro E' hlt
    have hE' : 0 < E' := hE0.trans hlt
    have hf : c.Full E' 1 0 := Or.inl (hcE' E' hlt)
    refine ⟨_, boxFn_eq hok hE' zero_le_one 0, ?_⟩
    show c.flow E' 1 0 = _
    have hin' : 1 ≤ c.inlet E' := by
      refine hin.trans (inlet_mono hok hok ⟨rfl, le_rfl, le_rfl, le_rfl⟩ hE0 hlt.le)
    unfold Box.flow
    simp only
    rw [if_pos (hE1.trans hlt), c.sect_full hf, hopen]
    unfold Box.fullPerimeter
    rw [hopen, hheight]
    have e : (1 : ℝ) * 1 / (2 * (1 + 1)) = 1 / 4 := by norm_num
    simp only
    rw [e, mul_one, (hloss (1 / 4) (by norm_num) (by norm_num)).1]
    exact min_eq_right ((hloss (1 / 4) (by norm_num) (by norm_num)).2.trans hin')

/-! ## Pipe -/

/-- The discharge of a pipe is the largest that the two inlet formulas allow and that does not lose more head in the barrels than there
is; the part of the pipes that is wet is part of the pipes. -/
theorem C70_pipe {c : Pipe} (h : c.Ok) {E dH : ℝ} (hE : 0 < E) (hd : 0 ≤ dH) (outD : ℝ) :
    ∃ f D P, pipeFn c E dH outD = some f ∧ D = pipeOpen c.blockage * c.diameter ∧ 0 < D ∧ D ≤ c.diameter ∧
      Filled c.barrels D f.depth f.area P ∧
      0 < f.depth ∧ f.depth ≤ D ∧ 0 < f.area ∧ f.area ≤ c.barrels * (π * (D / 2) ^ 2) ∧ 0 < P ∧
      (dH < E → outD > D → f.depth = D ∧ f.area = c.barrels * (π * (D / 2) ^ 2) ∧ P = c.barrels * (π * D)) ∧
      IsGreatest {q | 0 ≤ q ∧ q ≤ c.weir D E ∧ q ≤ c.orifice D E ∧ headLoss c.toBarrel f.area P q ≤ dH} f.Q ∧
      0 ≤ f.vel ∧ f.vel * f.area ≤ f.Q ∧ f.vel * (f.area + vprot / f.area) = f.Q := by
  obtain ⟨d, A, P, hfi, d0, dD, A0, A1, P0, hful, hfn⟩ := pipeFn_spec h hE hd outD
  have hv : 0 < vprot / A := div_pos (by unfold vprot; norm_num) A0
  have hin := (c.inlet_pos h hE).le
  have hQ : 0 ≤ min (c.inlet E) (A * √(dH / lossRate c.toBarrel (A / P))) := le_min hin (mul_nonneg A0.le (Real.sqrt_nonneg _))
  have efull : fullArea c.barrels c.D = c.barrels * (π * (c.D / 2) ^ 2) := by unfold fullArea; ring
  refine ⟨_, c.D, P, hfn, rfl, c.D_pos h, ?_, hfi, d0, dD, A0, efull ▸ A1, P0, ?_, ⟨⟨hQ, ?_, ?_, ?_⟩, ?_⟩, ?_, ?_, ?_⟩
  · exact mul_le_of_le_one_left h.diameter.le (pipeOpen_le h.lower)
  · intro a b
    obtain ⟨e1, e2, e3⟩ := hful a b
    exact ⟨e1, e2.trans efull, e3.trans (by ring)⟩
  · exact (min_le_left _ _).trans (min_le_left _ _)
  · exact (min_le_left _ _).trans (min_le_right _ _)
  · exact (headLoss_le_iff h.toOk A0 P0 hd hQ).mpr (min_le_right _ _)
  · rintro q ⟨q0, q1, q2, q3⟩
    exact le_min (le_min q1 q2) ((headLoss_le_iff h.toOk A0 P0 hd q0).mp q3)
  · exact div_nonneg hQ (by linarith)
  · show _ / _ * A ≤ _
    rw [div_mul_eq_mul_div, div_le_iff₀ (by linarith)]
    exact mul_le_mul_of_nonneg_left (by linarith) hQ
  · exact div_mul_cancel₀ _ (add_pos A0 hv).ne'

theorem C70_pipe_no_flow (c : Pipe) (E dH outD : ℝ) :
    (1 ≤ c.blockage → ∃ f, pipeFn c E dH outD = some f ∧ f.Q = 0 ∧ f.vel = 0) ∧
    (c.Ok → 0 < E → dH = 0 → ∃ f, pipeFn c E dH outD = some f ∧ f.Q = 0 ∧ f.vel = 0) := by
  constructor
  · intro hb
    exact ⟨_, if_pos hb, rfl, rfl⟩
  · intro h hE hd
    subst hd
    obtain ⟨d, A, P, hfi, d0, dD, A0, A1, P0, hful, hfn⟩ := pipeFn_spec h hE le_rfl outD
    have e : min (c.inlet E) (A * √(0 / lossRate c.toBarrel (A / P))) = 0 := by
      rw [zero_div, Real.sqrt_zero, mul_zero, min_eq_right (c.inlet_pos h hE).le]
    rw [e, zero_div] at hfn
    exact ⟨_, hfn, rfl, rfl⟩

/-- The depth in a pipe does not obey similarity: twice the size and the similar discharge (2 to the 5/2 times) should give twice the
depth, and give more than five times. The formula multiplies by `D ^ 2.5` where it should divide. -/
theorem C70_pipe_depth_not_similar : ∃ Q d d', 0 < Q ∧ pipeDepth 1 Q = some d ∧ pipeDepth 2 (2 ^ (2.5 : ℝ) * Q) = some d' ∧
    0 < d ∧ 5 * d < d' := by
  have hg := sqrt_g_pos
  have e1 : √g * (1 / 10) ^ (3.75 : ℝ) / g ^ (0.5 : ℝ) * 1 ^ (2.5 : ℝ) = (1 / 10) ^ (3.75 : ℝ) := by
    rw [sqrt_g, Real.one_rpow]; field_simp
  have e2 : 2 ^ (2.5 : ℝ) * (√g * (1 / 10) ^ (3.75 : ℝ)) / g ^ (0.5 : ℝ) * 2 ^ (2.5 : ℝ) = 2 ^ (5 : ℝ) * (1 / 10) ^ (3.75 : ℝ) := by
    have : (2 : ℝ) ^ (5 : ℝ) = 2 ^ (2.5 : ℝ) * 2 ^ (2.5 : ℝ) := by rw [← Real.rpow_add (by norm_num)]; norm_num
    rw [sqrt_g, this]; field_simp
  have e3 : ((1 / 10 : ℝ) ^ (3.75 : ℝ)) ^ (1 / 3.75 : ℝ) = 1 / 10 := by
    rw [← Real.rpow_mul (by norm_num)]; norm_num
  have e4 : ((2 : ℝ) ^ (5 : ℝ) * (1 / 10) ^ (3.75 : ℝ)) ^ (1 / 3.75 : ℝ) = 2 ^ (4 / 3 : ℝ) / 10 := by
    rw [Real.mul_rpow (by positivity) (by positivity), e3, ← Real.rpow_mul (by norm_num)]
    norm_num
    ring
  have h1 : (2.5 : ℝ) < 2 ^ (4 / 3 : ℝ) := by
    have : (2.5 : ℝ) = (2.5 ^ (3 : ℝ)) ^ (1 / 3 : ℝ) := by rw [← Real.rpow_mul (by norm_num)]; norm_num
    rw [this, show (4 / 3 : ℝ) = 4 * (1 / 3) by norm_num, Real.rpow_mul (by norm_num)]
    refine Real.rpow_lt_rpow (by positivity) ?_ (by norm_num)
    have a : (2.5 : ℝ) ^ (3 : ℝ) = 2.5 ^ 3 := by norm_cast
    have b : (2 : ℝ) ^ (4 : ℝ) = 2 ^ 4 := by norm_cast
    rw [a, b]
    norm_num
  have h2 : (2 : ℝ) ^ (4 / 3 : ℝ) < 4 := by
    have : (4 : ℝ) = 2 ^ (2 : ℝ) := by norm_num
    rw [this]
    exact Real.rpow_lt_rpow_of_exponent_lt (by norm_num) (by norm_num)
  refine ⟨√g * (1 / 10) ^ (3.75 : ℝ), 1 / 1.26 * (1 / 10), 2 / 1.26 * (2 ^ (4 / 3 : ℝ) / 10), by positivity, ?_, ?_, by norm_num, ?_⟩
  · unfold pipeDepth
    simp only [Option.bind_eq_bind]
    rw [div?_eq _ one_ne_zero, e1, e3]
    simp only [Option.bind_some]
    rw [if_neg (by norm_num)]
  · unfold pipeDepth
    simp only [Option.bind_eq_bind]
    rw [div?_eq _ two_ne_zero, e2, e4]
    simp only [Option.bind_some]
    rw [if_neg (by norm_num at h2 ⊢; linarith)]
  · norm_num at h1 ⊢
    linarith

/-! ## Trapezoid -/

/-- The discharge of a trapezoid is at most what each of the two inlet formulas allows and, when the difference of levels is smaller than
the depth of energy at the inlet, does not lose more head than there is; otherwise it is exactly what the inlet allows. It is positive if
there is a difference of levels. `crit` is whatever depth the root search returns. -/
theorem C70_trapezoid {crit : ℝ → ℝ} (hcr : ∀ q, 0 ≤ q → 0 < crit q) {c : Weir} (h : c.Ok) {E dH : ℝ} (hE : 0 < E) (hd : 0 ≤ dH)
    (outD : ℝ) : ∃ f, weirFn crit c E dH outD = some f ∧ 0 < f.depth ∧ f.depth ≤ c.height ∧
      f.area = (1 - c.blockage) * c.barrels * c.width * f.depth + (c.z1 + c.z2) / 2 * f.depth ^ 2 ∧
      0 ≤ f.Q ∧ f.Q ≤ c.weir E ∧ f.Q ≤ c.orifice E ∧
      (dH < E → headLoss c.toBarrel f.area ((1 - c.blockage) * c.barrels * c.width + √(f.depth ^ 2 + (c.z1 * f.depth) ^ 2) +
        √(f.depth ^ 2 + (c.z2 * f.depth) ^ 2)) f.Q ≤ dH) ∧
      (E ≤ dH → f.Q = min (c.weir E) (c.orifice E)) ∧ (0 < dH → 0 < f.Q) ∧ (dH = 0 → f.Q = 0) ∧
      0 ≤ f.vel ∧ f.vel * f.area ≤ f.Q ∧ f.vel * (f.area + vprot / f.area) = f.Q := by
  obtain ⟨f, hf, d0, d1, fa, q0, q1, q2, fv, hl, hi, hp⟩ := weirFn_spec hcr h hE hd outD
  have hA : 0 < f.area := by rw [fa]; exact weirArea_pos h d0
  have hv : 0 < vprot / f.area := div_pos (by unfold vprot; norm_num) hA
  have hb := c.bottom_pos h
  have hP : 0 < c.bottom + weirBanks c f.depth := add_pos_of_pos_of_nonneg hb (weirBanks_nonneg c f.depth)
  refine ⟨f, hf, d0, d1, ?_, q0, q1, q2, ?_, hi, hp, ?_, ?_, ?_, ?_⟩
  · rw [fa]; unfold weirArea; ring
  · intro hx
    have := (headLoss_le_iff h.toOk hA hP hd q0).mpr (hl hx)
    have e : c.bottom + weirBanks c f.depth = (1 - c.blockage) * c.barrels * c.width + √(f.depth ^ 2 + (c.z1 * f.depth) ^ 2) +
        √(f.depth ^ 2 + (c.z2 * f.depth) ^ 2) := by
      unfold Weir.bottom weirBanks
      rw [Real.sqrt_eq_rpow, Real.sqrt_eq_rpow, show (0.5 : ℝ) = 1 / 2 by norm_num]
      ring
    rwa [e] at this
  · intro hz
    have := hl (by rw [hz]; exact hE)
    rw [hz, zero_div, Real.sqrt_zero, mul_zero] at this
    exact le_antisymm this q0
  · rw [fv]; exact div_nonneg q0 (by linarith)
  · rw [fv, div_mul_eq_mul_div, div_le_iff₀ (by linarith)]
    exact mul_le_mul_of_nonneg_left (by linarith) q0
  · rw [fv]; exact div_mul_cancel₀ _ (add_pos hA hv).ne'

/-- Examples of structures meeting the hypotheses. -/
example : (⟨⟨20, 1.5, 0.013⟩, 3, 2, 0.25, 2⟩ : Box).Ok :=
  ⟨⟨by norm_num, by norm_num, Or.inl (by norm_num)⟩, by norm_num, by norm_num, by norm_num, by norm_num⟩

example : (⟨⟨20, 1.5, 0.013⟩, 3, 2, 0.25, 2⟩ : Box).Wider ⟨⟨15, 1, 0.012⟩, 3, 2, 0, 2⟩ :=
  ⟨rfl, by unfold Box.open; norm_num, by norm_num, by norm_num⟩

example : (⟨⟨20, 1.5, 0.013⟩, 1.2, 0.1, 3⟩ : Pipe).Ok :=
  ⟨⟨by norm_num, by norm_num, Or.inl (by norm_num)⟩, by norm_num, by norm_num, by norm_num, by norm_num⟩

example : (⟨⟨20, 1.5, 0.013⟩, 3, 2, 0.25, 2, 1, 2⟩ : Weir).Ok :=
  ⟨⟨by norm_num, by norm_num, Or.inl (by norm_num)⟩, by norm_num, by norm_num, by norm_num, by norm_num, by norm_num, by norm_num⟩

end Verif.Culvert
