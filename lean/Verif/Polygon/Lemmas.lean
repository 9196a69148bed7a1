import Verif.Polygon.Spec

/-! # Lemmas about the on-line test and the ray test -/

namespace Verif.Polygon

set_option linter.unusedSectionVars false

variable {K : Type*} [Field K] [LinearOrder K] [IsStrictOrderedRing K]

theorem le_of_sq {a b : K} (hb : 0 ≤ b) (h : a * a ≤ b * b) : a ≤ b := by
  by_contra hc
  push Not at hc
  nlinarith

theorem OnSeg.symm {p a b : Pt K} (h : OnSeg p a b) : OnSeg p b a := by
  obtain ⟨t, h0, h1, hx, hy⟩ := h
  exact ⟨1 - t, by linarith, by linarith, by rw [hx]; ring, by rw [hy]; ring⟩

theorem Near.symm {r : K} {p a b : Pt K} (h : Near r p a b) : Near r p b a := by
  obtain ⟨q, hq, hd⟩ := h
  exact ⟨q, hq.symm, hd⟩

theorem OnSeg.near {p a b : Pt K} (h : OnSeg p a b) (r : K) : Near r p a b :=
  ⟨p, h, by simp only [sub_self, mul_zero, add_zero]; exact mul_self_nonneg r⟩

theorem onSeg_left (a b : Pt K) : OnSeg a a b := ⟨0, le_refl _, zero_le_one, by ring, by ring⟩

theorem onSeg_right (a b : Pt K) : OnSeg b a b := ⟨1, zero_le_one, le_refl _, by ring, by ring⟩

theorem dist_sq {sq : K → K} (hs : IsSqrt sq) (x y : K) :
    0 ≤ dist sq x y ∧ dist sq x y * dist sq x y = x * x + y * y :=
  hs _ (add_nonneg (mul_self_nonneg x) (mul_self_nonneg y))

/-- The on-line test accepts every point of the segment. -/
theorem pointOnLine_of_onSeg {sq : K → K} (hs : IsSqrt sq) {rtol atol : K} (hr : 0 ≤ rtol) (ha : 0 ≤ atol) {p a b : Pt K}
    (h : OnSeg p a b) : pointOnLine sq rtol atol p a b = true := by
  obtain ⟨t, h0, h1, hx, hy⟩ := h
  have e0 : p.x - a.x = t * (b.x - a.x) := by rw [hx]; ring
  have e1 : p.y - a.y = t * (b.y - a.y) := by rw [hy]; ring
  unfold pointOnLine
  simp only [e0, e1]
  generalize b.x - a.x = b0
  generalize b.y - a.y = b1
  have en : |t * b1 * b0 + -(t * b0) * b1| = 0 := by rw [abs_eq_zero]; ring
  rw [en]
  have hd : dist sq (t * b0) (t * b1) ≤ dist sq b0 b1 := by
    obtain ⟨hA, hA2⟩ := dist_sq hs (t * b0) (t * b1)
    obtain ⟨hB, hB2⟩ := dist_sq hs b0 b1
    apply le_of_sq hB
    rw [hA2, hB2]
    have e : t * b0 * (t * b0) + t * b1 * (t * b1) = (t * t) * (b0 * b0 + b1 * b1) := by ring
    rw [e]
    have ht : t * t ≤ 1 := by nlinarith
    have hn : 0 ≤ b0 * b0 + b1 * b1 := add_nonneg (mul_self_nonneg _) (mul_self_nonneg _)
    nlinarith
  have hdot : 0 ≤ t * b0 * b0 + t * b1 * b1 := by
    have e : t * b0 * b0 + t * b1 * b1 = t * (b0 * b0 + b1 * b1) := by ring
    rw [e]
    exact mul_nonneg h0 (add_nonneg (mul_self_nonneg _) (mul_self_nonneg _))
  have p1 : (0 : K) < 1 / 10 ^ 308 := one_div_pos.mpr (pow_pos (by norm_num) _)
  have p2 : (0 : K) < 1 / 10 ^ 15 := by positivity
  have hp : (if b0 * b0 + b1 * b1 = 0 then decide ((0 : K) ≤ atol) else decide (0 / (b0 * b0 + b1 * b1) ≤ rtol)) = true := by
    split_ifs
    · simpa using ha
    · simpa using hr
  rw [hp]
  simp only [Bool.true_and, Bool.and_eq_true, decide_eq_true_eq]
  constructor <;> linarith

/-- Core of the converse, for a vector `(a0, a1)` nearly parallel to `(b0, b1)`. -/
theorem parallel_near {sq : K → K} (hs : IsSqrt sq) {a0 a1 b0 b1 rtol : K}
    (hn : |a1 * b0 - a0 * b1| ≤ rtol * (b0 * b0 + b1 * b1))
    (hdot : -(1 / 10 ^ 308) ≤ a0 * b0 + a1 * b1) (hlen : -(1 / 10 ^ 15) ≤ dist sq b0 b1 - dist sq a0 a1) :
    ∃ t : K, 0 ≤ t ∧ t ≤ 1 ∧
      (a0 - t * b0) * (a0 - t * b0) + (a1 - t * b1) * (a1 - t * b1) ≤
        rtol * rtol * (b0 * b0 + b1 * b1) + margin * margin := by
  obtain ⟨hA, hA2⟩ := dist_sq hs a0 a1
  obtain ⟨hB, hB2⟩ := dist_sq hs b0 b1
  have hm : (margin : K) = 2 * (1 / 10 ^ 15) := by unfold margin; ring
  have hdelta : (1 : K) / 10 ^ 308 ≤ 1 / 10 ^ 15 * (1 / 10 ^ 15) := by
    rw [div_mul_div_comm, one_mul, ← pow_add]
    exact one_div_le_one_div_of_le (pow_pos (by norm_num) _) (pow_le_pow_right₀ (by norm_num) (by norm_num))
  have hd0 : (0 : K) < 1 / 10 ^ 308 := one_div_pos.mpr (pow_pos (by norm_num) _)
  have he0 : (0 : K) < 1 / 10 ^ 15 := by positivity
  rw [hm]
  generalize (1 : K) / 10 ^ 308 = δ at *
  generalize (1 : K) / 10 ^ 15 = ε at *
  generalize dist sq a0 a1 = A at *
  generalize dist sq b0 b1 = B at *
  have hdn : 0 ≤ b0 * b0 + b1 * b1 := add_nonneg (mul_self_nonneg _) (mul_self_nonneg _)
  have hrd : 0 ≤ rtol * rtol * (b0 * b0 + b1 * b1) := mul_nonneg (mul_self_nonneg _) hdn
  by_cases hBz : B ≤ ε
  · refine ⟨0, le_refl _, zero_le_one, ?_⟩
    simp only [zero_mul, sub_zero]
    rw [← hA2]
    have := mul_self_le_mul_self hA (by linarith : A ≤ 2 * ε)
    linarith
  push Not at hBz
  have hden : 0 < b0 * b0 + b1 * b1 := by rw [← hB2]; exact mul_pos (he0.trans hBz) (he0.trans hBz)
  obtain ⟨t, ht⟩ : ∃ t, t = (a0 * b0 + a1 * b1) / (b0 * b0 + b1 * b1) := ⟨_, rfl⟩
  obtain ⟨s, hs'⟩ : ∃ s, s = (a1 * b0 - a0 * b1) / (b0 * b0 + b1 * b1) := ⟨_, rfl⟩
  have htd : t * (b0 * b0 + b1 * b1) = a0 * b0 + a1 * b1 := by
    rw [ht, div_mul_cancel₀ _ hden.ne']
  have hsd : s * (b0 * b0 + b1 * b1) = a1 * b0 - a0 * b1 := by
    rw [hs', div_mul_cancel₀ _ hden.ne']
  have ea0 : a0 = t * b0 - s * b1 := by
    have : a0 * (b0 * b0 + b1 * b1) = (t * b0 - s * b1) * (b0 * b0 + b1 * b1) := by
      linear_combination b1 * hsd - b0 * htd
    exact mul_right_cancel₀ hden.ne' this
  have ea1 : a1 = t * b1 + s * b0 := by
    have : a1 * (b0 * b0 + b1 * b1) = (t * b1 + s * b0) * (b0 * b0 + b1 * b1) := by
      linear_combination -b0 * hsd - b1 * htd
    exact mul_right_cancel₀ hden.ne' this
  have hss : s * s * (b0 * b0 + b1 * b1) ≤ rtol * rtol * (b0 * b0 + b1 * b1) := by
    have h1 : |s| ≤ rtol := by
      rw [← hsd, abs_mul, abs_of_pos hden] at hn
      exact le_of_mul_le_mul_right hn hden
    have h2 : s * s ≤ rtol * rtol := by
      rw [← abs_mul_abs_self s]
      exact mul_self_le_mul_self (abs_nonneg s) h1
    exact mul_le_mul_of_nonneg_right h2 hden.le
  have dsq : ∀ r : K, (a0 - r * b0) * (a0 - r * b0) + (a1 - r * b1) * (a1 - r * b1) =
      s * s * (b0 * b0 + b1 * b1) + ((t - r) * B) * ((t - r) * B) := by
    intro r
    rw [ea0, ea1]
    linear_combination (-(t - r) * (t - r)) * hB2
  have fin : ∀ r : K, 0 ≤ r → r ≤ 1 → ((t - r) * B) * ((t - r) * B) ≤ 2 * ε * (2 * ε) → ∃ t : K, 0 ≤ t ∧ t ≤ 1 ∧
      (a0 - t * b0) * (a0 - t * b0) + (a1 - t * b1) * (a1 - t * b1) ≤
        rtol * rtol * (b0 * b0 + b1 * b1) + 2 * ε * (2 * ε) := by
    intro r h0 h1 h2
    refine ⟨r, h0, h1, ?_⟩
    rw [dsq r]
    linarith
  have hee : 0 < ε * ε := mul_pos he0 he0
  by_cases h0 : t < 0
  · apply fin 0 (le_refl _) zero_le_one
    rw [sub_zero]
    have h2 : (t * B) * (t * B) * (b0 * b0 + b1 * b1) = (t * (b0 * b0 + b1 * b1)) * (t * (b0 * b0 + b1 * b1)) := by
      linear_combination (t * t * (b0 * b0 + b1 * b1)) * hB2
    have h3 : -(t * (b0 * b0 + b1 * b1)) ≤ δ := by rw [htd]; linarith
    have h4 : 0 ≤ -(t * (b0 * b0 + b1 * b1)) := neg_nonneg.mpr (mul_neg_of_neg_of_pos h0 hden).le
    have h5 : (t * (b0 * b0 + b1 * b1)) * (t * (b0 * b0 + b1 * b1)) ≤ δ * δ := by
      have := mul_self_le_mul_self h4 h3
      rwa [neg_mul_neg] at this
    have h6 : δ * δ ≤ (ε * ε) * (ε * ε) := mul_self_le_mul_self hd0.le hdelta
    have h7 : ε * ε ≤ b0 * b0 + b1 * b1 := by rw [← hB2]; exact mul_self_le_mul_self he0.le hBz.le
    have h8 : (t * B) * (t * B) ≤ ε * ε := by
      by_contra hc
      push Not at hc
      have : (ε * ε) * (ε * ε) < (t * B) * (t * B) * (b0 * b0 + b1 * b1) :=
        mul_lt_mul hc h7 hee (hee.trans hc).le
      linarith
    linarith
  · push Not at h0
    by_cases h1 : t ≤ 1
    · apply fin t h0 h1
      simp only [sub_self, zero_mul]
      positivity
    · push Not at h1
      apply fin 1 zero_le_one (le_refl _)
      have hAB : t * B ≤ A := by
        apply le_of_sq hA
        have h2 := dsq 0
        simp only [zero_mul, sub_zero] at h2
        rw [hA2, h2]
        have := mul_nonneg (mul_self_nonneg s) hden.le
        linarith
      have h4 : (t - 1) * B ≤ ε := by linarith
      have h5 : 0 ≤ (t - 1) * B := mul_nonneg (by linarith) hB
      have h6 := mul_self_le_mul_self h5 h4
      linarith

/-- An accepted point is close to the segment: up to the relative tolerance across and the safety margin along it. -/
theorem near_of_pointOnLine_tol {sq : K → K} (hs : IsSqrt sq) {rtol atol : K} {p a b : Pt K}
    (h : pointOnLine sq rtol atol p a b = true) :
    ∃ q, OnSeg q a b ∧ (p.x - q.x) * (p.x - q.x) + (p.y - q.y) * (p.y - q.y) ≤
      rtol * rtol * ((b.x - a.x) * (b.x - a.x) + (b.y - a.y) * (b.y - a.y)) + margin * margin := by
  unfold pointOnLine at h
  simp only [Bool.and_eq_true, decide_eq_true_eq, ge_iff_le] at h
  obtain ⟨h0, h1, h2⟩ := h
  have hdn : 0 ≤ (b.x - a.x) * (b.x - a.x) + (b.y - a.y) * (b.y - a.y) :=
    add_nonneg (mul_self_nonneg _) (mul_self_nonneg _)
  have hn : |(p.y - a.y) * (b.x - a.x) - (p.x - a.x) * (b.y - a.y)| ≤
      rtol * ((b.x - a.x) * (b.x - a.x) + (b.y - a.y) * (b.y - a.y)) := by
    split_ifs at h0 with hz
    · rw [hz, mul_zero]
      have e0 : b.x - a.x = 0 := by nlinarith [mul_self_nonneg (b.x - a.x), mul_self_nonneg (b.y - a.y)]
      have e1 : b.y - a.y = 0 := by nlinarith [mul_self_nonneg (b.x - a.x), mul_self_nonneg (b.y - a.y)]
      rw [e0, e1]; simp
    · rw [decide_eq_true_eq, div_le_iff₀ (lt_of_le_of_ne hdn (Ne.symm hz))] at h0
      convert h0 using 2
      ring
  obtain ⟨t, t0, t1, ht⟩ := parallel_near hs hn h1 h2
  refine ⟨⟨a.x + t * (b.x - a.x), a.y + t * (b.y - a.y)⟩, ⟨t, t0, t1, rfl, rfl⟩, ?_⟩
  have e0 : p.x - (a.x + t * (b.x - a.x)) = p.x - a.x - t * (b.x - a.x) := by ring
  have e1 : p.y - (a.y + t * (b.y - a.y)) = p.y - a.y - t * (b.y - a.y) := by ring
  simp only [e0, e1]
  exact ht

/-- The same for points exactly on the line through the segment. -/
theorem near_of_pointOnLine' {sq : K → K} (hs : IsSqrt sq) {rtol atol : K} {p a b : Pt K}
    (hn : (p.y - a.y) * (b.x - a.x) - (p.x - a.x) * (b.y - a.y) = 0)
    (h : pointOnLine sq rtol atol p a b = true) : Near margin p a b := by
  unfold pointOnLine at h
  simp only [Bool.and_eq_true, decide_eq_true_eq, ge_iff_le] at h
  obtain ⟨-, h1, h2⟩ := h
  obtain ⟨t, t0, t1, ht⟩ := parallel_near (rtol := 0) hs (by rw [hn]; simp) h1 h2
  refine ⟨⟨a.x + t * (b.x - a.x), a.y + t * (b.y - a.y)⟩, ⟨t, t0, t1, rfl, rfl⟩, ?_⟩
  have e0 : p.x - (a.x + t * (b.x - a.x)) = p.x - a.x - t * (b.x - a.x) := by ring
  have e1 : p.y - (a.y + t * (b.y - a.y)) = p.y - a.y - t * (b.y - a.y) := by ring
  simp only [e0, e1]
  simpa using ht

/-- With zero tolerances an accepted point is within the margin of the segment. -/
theorem near_of_pointOnLine {sq : K → K} (hs : IsSqrt sq) {p a b : Pt K}
    (h : pointOnLine sq 0 0 p a b = true) : Near margin p a b := by
  obtain ⟨q, hq, hd⟩ := near_of_pointOnLine_tol hs h
  exact ⟨q, hq, by simpa using hd⟩

/-! ## The ray test -/

/-- Twice the signed area of `a b p`. -/
def ori (a b p : Pt K) : K := (b.x - a.x) * (p.y - a.y) - (b.y - a.y) * (p.x - a.x)

theorem crosses_up {p a b : Pt K} (ha : a.y < p.y) (hb : p.y ≤ b.y) : crosses p a b = decide (ori a b p < 0) := by
  unfold crosses ori
  have hd : 0 < b.y - a.y := by linarith
  have h1 : (a.y < p.y ∧ b.y ≥ p.y ∨ b.y < p.y ∧ a.y ≥ p.y) := Or.inl ⟨ha, hb⟩
  simp only [h1, true_and]
  congr 1
  have e : a.x + (p.y - a.y) / (b.y - a.y) * (b.x - a.x) = a.x + (p.y - a.y) * (b.x - a.x) / (b.y - a.y) := by ring
  rw [e, eq_iff_iff, ← lt_sub_iff_add_lt', div_lt_iff₀ hd]
  constructor <;> intro h <;> nlinarith

theorem crosses_comm (p a b : Pt K) : crosses p a b = crosses p b a := by
  unfold crosses
  by_cases h : (a.y < p.y ∧ b.y ≥ p.y ∨ b.y < p.y ∧ a.y ≥ p.y)
  · have h' : (b.y < p.y ∧ a.y ≥ p.y ∨ a.y < p.y ∧ b.y ≥ p.y) := h.symm
    have hne : b.y - a.y ≠ 0 := by
      rcases h with h | h <;> intro e <;> linarith [h.1, h.2]
    have hne' : a.y - b.y ≠ 0 := fun e => hne (by linarith)
    have e : a.x + (p.y - a.y) / (b.y - a.y) * (b.x - a.x) = b.x + (p.y - b.y) / (a.y - b.y) * (a.x - b.x) := by
      have : a.y - b.y = -(b.y - a.y) := by ring
      rw [this, div_neg]
      field_simp
      ring
    simp only [h, h', true_and, e]
  · have h' : ¬ (b.y < p.y ∧ a.y ≥ p.y ∨ a.y < p.y ∧ b.y ≥ p.y) := fun h' => h h'.symm
    simp only [h, h', false_and]

theorem crosses_same {p a b : Pt K} (h : a.y < p.y ↔ b.y < p.y) : crosses p a b = false := by
  unfold crosses
  simp only [decide_eq_false_iff_not, not_and]
  rintro (⟨h1, h2⟩ | ⟨h1, h2⟩)
  · exact absurd (h.mp h1) (not_lt.mpr h2)
  · exact absurd (h.mpr h1) (not_lt.mpr h2)

theorem ori_zero_onSeg {p a b : Pt K} (ha : a.y < p.y) (hb : p.y ≤ b.y) (h : ori a b p = 0) : OnSeg p a b := by
  have hd : 0 < b.y - a.y := by linarith
  refine ⟨(p.y - a.y) / (b.y - a.y), div_nonneg (by linarith) hd.le, (div_le_one hd).mpr (by linarith), ?_, ?_⟩
  · unfold ori at h
    field_simp
    linear_combination -h
  · field_simp
    ring

theorem ori_neg (a b p : Pt K) : ori b a p = -ori a b p := by unfold ori; ring

theorem ori_cycle (a b p : Pt K) : ori b p a = ori a b p := by unfold ori; ring

theorem inTri_iff (p a b c : Pt K) :
    InTri p a b c ↔ (0 < ori a b p ∧ 0 < ori b c p ∧ 0 < ori c a p) ∨ (ori a b p < 0 ∧ ori b c p < 0 ∧ ori c a p < 0) := by
  have hsum : ori a b p + ori b c p + ori c a p = ori a b c := by unfold ori; ring
  constructor
  · rintro ⟨hf, u, v, w, hu, hv, hw, h1, hx, hy⟩
    have hu' : u = 1 - v - w := by linarith
    have e1 : ori a b p = w * ori a b c := by unfold ori; rw [hx, hy, hu']; ring
    have e2 : ori b c p = u * ori a b c := by unfold ori; rw [hx, hy, hu']; ring
    have e3 : ori c a p = v * ori a b c := by unfold ori; rw [hx, hy, hu']; ring
    have hne : ori a b c ≠ 0 := fun h => hf (by unfold Flat; unfold ori at h; linarith)
    rw [e1, e2, e3]
    rcases lt_or_gt_of_ne hne with h | h
    · right; exact ⟨mul_neg_of_pos_of_neg hw h, mul_neg_of_pos_of_neg hu h, mul_neg_of_pos_of_neg hv h⟩
    · left; exact ⟨mul_pos hw h, mul_pos hu h, mul_pos hv h⟩
  · intro h
    have hne : ori a b c ≠ 0 := by
      rw [← hsum]
      rcases h with ⟨h1, h2, h3⟩ | ⟨h1, h2, h3⟩
      · exact (by positivity : 0 < ori a b p + ori b c p + ori c a p).ne'
      · intro h; linarith
    refine ⟨fun hf => hne (by unfold Flat at hf; unfold ori; linarith), ori b c p / ori a b c, ori c a p / ori a b c,
      ori a b p / ori a b c, ?_, ?_, ?_, ?_, ?_, ?_⟩
    iterate 3
      rcases h with ⟨h1, h2, h3⟩ | ⟨h1, h2, h3⟩
      · exact div_pos (by assumption) (by rw [← hsum]; positivity)
      · exact div_pos_of_neg_of_neg (by assumption) (by rw [← hsum]; linarith)
    · field_simp; linarith
    · field_simp; unfold ori; ring
    · field_simp; unfold ori; ring

/-- Triangle with exactly one vertex strictly below the ray. -/
theorem tri_one {p a b c : Pt K} (ha : a.y < p.y) (hb : p.y ≤ b.y) (hc : p.y ≤ c.y) (nab : ¬ OnSeg p a b)
    (nbc : ¬ OnSeg p b c) (nca : ¬ OnSeg p c a) :
    (crosses p a b ^^ crosses p b c ^^ crosses p c a) = true ↔ InTri p a b c := by
  have ebc : crosses p b c = false := crosses_same (by constructor <;> intro h <;> linarith)
  have eab := crosses_up ha hb
  have eca : crosses p c a = decide (ori a c p < 0) := by rw [crosses_comm]; exact crosses_up ha hc
  have hab : ori a b p ≠ 0 := fun h => nab (ori_zero_onSeg ha hb h)
  have hac : ori a c p ≠ 0 := fun h => nca (ori_zero_onSeg ha hc h).symm
  have hca : ori c a p = -ori a c p := ori_neg a c p
  have key : ori b c p * (p.y - a.y) = ori c a p * (b.y - p.y) + ori a b p * (c.y - p.y) := by unfold ori; ring
  have hbc0 : 0 < ori a b p → 0 < ori c a p → 0 < ori b c p := by
    intro h1 h2
    have hge : 0 ≤ ori b c p * (p.y - a.y) := by
      rw [key]; exact add_nonneg (mul_nonneg h2.le (by linarith)) (mul_nonneg h1.le (by linarith))
    have hge' : 0 ≤ ori b c p := by
      by_contra hcn
      push Not at hcn
      nlinarith
    rcases hge'.lt_or_eq with h | h
    · exact h
    · exfalso
      rw [← h, zero_mul] at key
      have k1 : 0 ≤ ori c a p * (b.y - p.y) := mul_nonneg h2.le (by linarith)
      have k2 : 0 ≤ ori a b p * (c.y - p.y) := mul_nonneg h1.le (by linarith)
      have k3 : ori c a p * (b.y - p.y) = 0 := by linarith
      have k4 : ori a b p * (c.y - p.y) = 0 := by linarith
      have hby : b.y = p.y := by
        rcases mul_eq_zero.mp k3 with h3 | h3
        · linarith
        · linarith
      have hcy : c.y = p.y := by
        rcases mul_eq_zero.mp k4 with h3 | h3
        · linarith
        · linarith
      have hS : 0 < ori a b p + ori c a p := by linarith
      apply nbc
      refine ⟨ori a b p / (ori a b p + ori c a p), (div_pos h1 hS).le, (div_le_one hS).mpr (by linarith), ?_, ?_⟩
      · field_simp
        have : ori a b p + ori c a p = ori a b c := by
          have : ori a b p + ori b c p + ori c a p = ori a b c := by unfold ori; ring
          rw [← h] at this; linarith
        rw [this]
        unfold ori
        rw [hby, hcy]
        ring
      · rw [hby, hcy]; ring
  have hbc1 : ori a b p < 0 → ori c a p < 0 → ori b c p < 0 := by
    intro h1 h2
    have hge : ori b c p * (p.y - a.y) ≤ 0 := by
      rw [key]
      exact add_nonpos (mul_nonpos_of_nonpos_of_nonneg h2.le (by linarith))
        (mul_nonpos_of_nonpos_of_nonneg h1.le (by linarith))
    have hge' : ori b c p ≤ 0 := by
      by_contra hcn
      push Not at hcn
      nlinarith
    rcases hge'.lt_or_eq with h | h
    · exact h
    · exfalso
      rw [h, zero_mul] at key
      have k1 : ori c a p * (b.y - p.y) ≤ 0 := mul_nonpos_of_nonpos_of_nonneg h2.le (by linarith)
      have k2 : ori a b p * (c.y - p.y) ≤ 0 := mul_nonpos_of_nonpos_of_nonneg h1.le (by linarith)
      have k3 : ori c a p * (b.y - p.y) = 0 := by linarith
      have k4 : ori a b p * (c.y - p.y) = 0 := by linarith
      have hby : b.y = p.y := by
        rcases mul_eq_zero.mp k3 with h3 | h3
        · linarith
        · linarith
      have hcy : c.y = p.y := by
        rcases mul_eq_zero.mp k4 with h3 | h3
        · linarith
        · linarith
      have hS : ori a b p + ori c a p < 0 := by linarith
      apply nbc
      refine ⟨ori a b p / (ori a b p + ori c a p), (div_pos_of_neg_of_neg h1 hS).le,
        (div_le_one_of_neg hS).mpr (by linarith), ?_, ?_⟩
      · have hSne := hS.ne
        field_simp
        have : ori a b p + ori c a p = ori a b c := by
          have : ori a b p + ori b c p + ori c a p = ori a b c := by unfold ori; ring
          rw [h] at this; linarith
        rw [this]
        unfold ori
        rw [hby, hcy]
        ring
      · rw [hby, hcy]; ring
  rw [inTri_iff, eab, ebc, eca]
  rcases lt_or_gt_of_ne hab with h1 | h1 <;> rcases lt_or_gt_of_ne hac with h2 | h2
  · rw [decide_eq_true h1, decide_eq_true h2]
    refine ⟨fun h => by simp at h, ?_⟩
    rintro (⟨h, -, -⟩ | ⟨-, -, h⟩) <;> linarith
  · have h3 : ori c a p < 0 := by linarith
    rw [decide_eq_true h1, decide_eq_false (not_lt.mpr h2.le)]
    exact ⟨fun _ => Or.inr ⟨h1, hbc1 h1 h3, h3⟩, fun _ => rfl⟩
  · have h3 : 0 < ori c a p := by linarith
    rw [decide_eq_true h2, decide_eq_false (not_lt.mpr h1.le)]
    exact ⟨fun _ => Or.inl ⟨h1, hbc0 h1 h3, h3⟩, fun _ => rfl⟩
  · rw [decide_eq_false (not_lt.mpr h1.le), decide_eq_false (not_lt.mpr h2.le)]
    refine ⟨fun h => by simp at h, ?_⟩
    rintro (⟨-, -, h⟩ | ⟨h, -, -⟩) <;> linarith

/-- Triangle with exactly two vertices strictly below the ray. -/
theorem tri_two {p a b c : Pt K} (ha : a.y < p.y) (hb : b.y < p.y) (hc : p.y ≤ c.y) (nbc : ¬ OnSeg p b c)
    (nca : ¬ OnSeg p c a) :
    (crosses p a b ^^ crosses p b c ^^ crosses p c a) = true ↔ InTri p a b c := by
  have eab : crosses p a b = false := crosses_same (by constructor <;> intro _ <;> assumption)
  have ebc := crosses_up hb hc
  have eca : crosses p c a = decide (ori a c p < 0) := by rw [crosses_comm]; exact crosses_up ha hc
  have hbc : ori b c p ≠ 0 := fun h => nbc (ori_zero_onSeg hb hc h)
  have hac : ori a c p ≠ 0 := fun h => nca (ori_zero_onSeg ha hc h).symm
  have hca : ori c a p = -ori a c p := ori_neg a c p
  have key : ori a b p * (c.y - p.y) = ori b c p * (p.y - a.y) + ori c a p * (p.y - b.y) := by unfold ori; ring
  have h0 : 0 < ori b c p → 0 < ori c a p → 0 < ori a b p := by
    intro h1 h2
    have : 0 < ori a b p * (c.y - p.y) := by
      rw [key]; exact add_pos (mul_pos h1 (by linarith)) (mul_pos h2 (by linarith))
    exact pos_of_mul_pos_left this (by linarith)
  have h1 : ori b c p < 0 → ori c a p < 0 → ori a b p < 0 := by
    intro h1 h2
    have : ori a b p * (c.y - p.y) < 0 := by
      rw [key]; exact add_neg (mul_neg_of_neg_of_pos h1 (by linarith)) (mul_neg_of_neg_of_pos h2 (by linarith))
    by_contra hn
    push Not at hn
    have := mul_nonneg hn (by linarith : 0 ≤ c.y - p.y)
    linarith
  rw [inTri_iff, eab, ebc, eca]
  rcases lt_or_gt_of_ne hbc with k1 | k1 <;> rcases lt_or_gt_of_ne hac with k2 | k2
  · rw [decide_eq_true k1, decide_eq_true k2]
    refine ⟨fun h => by simp at h, ?_⟩
    rintro (⟨-, h, -⟩ | ⟨-, -, h⟩) <;> linarith
  · have k3 : ori c a p < 0 := by linarith
    rw [decide_eq_true k1, decide_eq_false (not_lt.mpr k2.le)]
    exact ⟨fun _ => Or.inr ⟨h1 k1 k3, k1, k3⟩, fun _ => rfl⟩
  · have k3 : 0 < ori c a p := by linarith
    rw [decide_eq_true k2, decide_eq_false (not_lt.mpr k1.le)]
    exact ⟨fun _ => Or.inl ⟨h0 k1 k3, k1, k3⟩, fun _ => rfl⟩
  · rw [decide_eq_false (not_lt.mpr k1.le), decide_eq_false (not_lt.mpr k2.le)]
    refine ⟨fun h => by simp at h, ?_⟩
    rintro (⟨-, -, h⟩ | ⟨-, h, -⟩) <;> linarith

theorem inTri_cycle (p a b c : Pt K) : InTri p a b c ↔ InTri p b c a := by
  rw [inTri_iff, inTri_iff]; tauto

/-- The ray test on the three sides of a triangle decides membership of its interior. -/
theorem tri_parity {p a b c : Pt K} (nab : ¬ OnSeg p a b) (nbc : ¬ OnSeg p b c) (nca : ¬ OnSeg p c a) :
    (crosses p a b ^^ crosses p b c ^^ crosses p c a) = true ↔ InTri p a b c := by
  have rot1 : (crosses p a b ^^ crosses p b c ^^ crosses p c a) = (crosses p b c ^^ crosses p c a ^^ crosses p a b) := by
    generalize crosses p a b = u
    generalize crosses p b c = v
    generalize crosses p c a = w
    revert u v w; decide
  have rot2 : (crosses p a b ^^ crosses p b c ^^ crosses p c a) = (crosses p c a ^^ crosses p a b ^^ crosses p b c) := by
    generalize crosses p a b = u
    generalize crosses p b c = v
    generalize crosses p c a = w
    revert u v w; decide
  have t1 : InTri p a b c ↔ InTri p b c a := inTri_cycle p a b c
  have t2 : InTri p a b c ↔ InTri p c a b := t1.trans (inTri_cycle p b c a)
  have key : ori b c p * (a.y - p.y) + ori c a p * (b.y - p.y) + ori a b p * (c.y - p.y) = 0 := by unfold ori; ring
  by_cases ha : a.y < p.y <;> by_cases hb : b.y < p.y <;> by_cases hc : c.y < p.y
  · rw [crosses_same (a := a) (b := b) (by tauto), crosses_same (a := b) (b := c) (by tauto),
      crosses_same (a := c) (b := a) (by tauto), inTri_iff]
    refine ⟨fun h => by simp at h, ?_⟩
    rintro (⟨h1, h2, h3⟩ | ⟨h1, h2, h3⟩) <;> exfalso <;> nlinarith
  · exact tri_two ha hb (not_lt.mp hc) nbc nca
  · rw [rot2, t2]; exact tri_two hc ha (not_lt.mp hb) nab nbc
  · exact tri_one ha (not_lt.mp hb) (not_lt.mp hc) nab nbc nca
  · rw [rot1, t1]; exact tri_two hb hc (not_lt.mp ha) nca nab
  · rw [rot1, t1]; exact tri_one hb (not_lt.mp hc) (not_lt.mp ha) nbc nca nab
  · rw [rot2, t2]; exact tri_one hc (not_lt.mp ha) (not_lt.mp hb) nca nab nbc
  · rw [crosses_same (a := a) (b := b) (by tauto), crosses_same (a := b) (b := c) (by tauto),
      crosses_same (a := c) (b := a) (by tauto), inTri_iff]
    push Not at ha hb hc
    refine ⟨fun h => by simp at h, ?_⟩
    intro h
    exfalso
    have hz : a.y = p.y ∧ b.y = p.y := by
      rcases h with ⟨h1, h2, h3⟩ | ⟨h1, h2, h3⟩
      · have k1 := mul_nonneg h2.le (by linarith : 0 ≤ a.y - p.y)
        have k2 := mul_nonneg h3.le (by linarith : 0 ≤ b.y - p.y)
        have k3 := mul_nonneg h1.le (by linarith : 0 ≤ c.y - p.y)
        have e1 : ori b c p * (a.y - p.y) = 0 := by linarith
        have e2 : ori c a p * (b.y - p.y) = 0 := by linarith
        rcases mul_eq_zero.mp e1 with e | e <;> rcases mul_eq_zero.mp e2 with e' | e' <;>
          first | (exfalso; linarith) | exact ⟨by linarith, by linarith⟩
      · have k1 := mul_nonpos_of_nonpos_of_nonneg h2.le (by linarith : 0 ≤ a.y - p.y)
        have k2 := mul_nonpos_of_nonpos_of_nonneg h3.le (by linarith : 0 ≤ b.y - p.y)
        have k3 := mul_nonpos_of_nonpos_of_nonneg h1.le (by linarith : 0 ≤ c.y - p.y)
        have e1 : ori b c p * (a.y - p.y) = 0 := by linarith
        have e2 : ori c a p * (b.y - p.y) = 0 := by linarith
        rcases mul_eq_zero.mp e1 with e | e <;> rcases mul_eq_zero.mp e2 with e' | e' <;>
          first | (exfalso; linarith) | exact ⟨by linarith, by linarith⟩
    have : ori a b p = 0 := by unfold ori; rw [hz.1, hz.2]; ring
    rcases h with ⟨h1, -, -⟩ | ⟨h1, -, -⟩ <;> linarith

/-! ## Parity along closed polygons -/

/-- Exclusive or of a list of flags. -/
def xors (l : List Bool) : Bool := l.foldr xor false

theorem xors_perm {l m : List Bool} (h : l.Perm m) : xors l = xors m :=
  h.foldr_eq (lcomm := ⟨by decide⟩) false

theorem xors_zip {α : Type*} (f g : α → Bool) (l : List α) :
    xors (l.map (fun a => f a ^^ g a)) = (xors (l.map f) ^^ xors (l.map g)) := by
  induction l with
  | nil => rfl
  | cons a l ih =>
    simp only [xors, List.map_cons, List.foldr_cons] at ih ⊢
    rw [ih]
    generalize f a = u
    generalize g a = v
    generalize List.foldr xor false (List.map f l) = w
    generalize List.foldr xor false (List.map g l) = z
    revert u v w z; decide

theorem xors_count {α : Type*} (f : α → Bool) (l : List α) : xors (l.map f) = decide (Odd (l.countP f)) := by
  induction l with
  | nil => simp [xors]
  | cons a l ih =>
    simp only [xors, List.map_cons, List.foldr_cons] at ih ⊢
    rw [ih, List.countP_cons]
    cases f a
    · simp
    · simp only [if_true, Nat.odd_add_one]
      by_cases h : Odd (l.countP f) <;> simp [h]

theorem edges_fst (poly : List (Pt K)) : (edges poly).map Prod.fst = poly := by
  unfold edges
  rw [List.map_fst_zip]
  simp

theorem edges_snd (poly : List (Pt K)) : (edges poly).map Prod.snd = poly.rotate 1 := by
  unfold edges
  rw [List.map_snd_zip]
  simp

/-- A function of vertices summed over both ends of all sides cancels. -/
theorem xors_ends (f : Pt K → Bool) (poly : List (Pt K)) :
    xors ((edges poly).map (fun e => f e.1 ^^ f e.2)) = false := by
  rw [xors_zip (fun e : Pt K × Pt K => f e.1) (fun e : Pt K × Pt K => f e.2)]
  have e1 : (edges poly).map (fun e => f e.1) = poly.map f := by
    rw [show (fun e : Pt K × Pt K => f e.1) = f ∘ Prod.fst from rfl, ← List.map_map, edges_fst]
  have e2 : (edges poly).map (fun e => f e.2) = (poly.rotate 1).map f := by
    rw [show (fun e : Pt K × Pt K => f e.2) = f ∘ Prod.snd from rfl, ← List.map_map, edges_snd]
  rw [e1, e2, xors_perm ((List.rotate_perm poly 1).map f)]
  simp

theorem mem_edges {poly : List (Pt K)} {e : Pt K × Pt K} (h : e ∈ edges poly) : e.1 ∈ poly ∧ e.2 ∈ poly := by
  have := List.of_mem_zip (a := e.1) (b := e.2) h
  exact ⟨this.1, by simpa using this.2⟩

theorem edges_length (poly : List (Pt K)) : (edges poly).length = poly.length := by
  unfold edges; simp

theorem edges_get (poly : List (Pt K)) (i : ℕ) (h : i < poly.length) :
    (edges poly)[i]'(by rw [edges_length]; exact h) =
      (poly[i], poly[(i + 1) % poly.length]'(Nat.mod_lt _ (by omega))) := by
  unfold edges
  rw [List.getElem_zip, List.getElem_rotate]

theorem side_iff (poly : List (Pt K)) (a b : Pt K) : Side poly a b ↔ (a, b) ∈ edges poly := by
  rw [List.mem_iff_getElem]
  constructor
  · rintro ⟨i, h, rfl, rfl⟩
    exact ⟨i, by rw [edges_length]; exact h, edges_get poly i h⟩
  · rintro ⟨i, h, e⟩
    rw [edges_length] at h
    rw [edges_get poly i h, Prod.mk.injEq] at e
    exact ⟨i, h, e.1.symm, e.2.symm⟩

/-- The loop over sides. -/
theorem scan_eq (sq : K → K) (closed : Bool) (p : Pt K) (es : List (Pt K × Pt K)) (b : Bool) :
    scan sq closed p es b =
      if es.any (fun e => pointOnLine sq 0 0 p e.1 e.2) then closed
      else (b ^^ xors (es.map (fun e => crosses p e.1 e.2))) := by
  induction es generalizing b with
  | nil => simp [scan, xors]
  | cons e es ih =>
    obtain ⟨u, v⟩ := e
    rw [scan]
    by_cases h : pointOnLine sq 0 0 p u v = true
    · simp [h]
    · rw [if_neg h, ih]
      simp only [Bool.not_eq_true] at h
      simp only [List.any_cons, h, Bool.false_or, xors, List.map_cons, List.foldr_cons]
      congr 1
      cases crosses p u v <;> cases b <;> simp

/-! ## Bounding box -/

theorem box_grows (vs : List (Pt K)) (b : Box K) :
    (vs.foldl growBox b).minx ≤ b.minx ∧ b.maxx ≤ (vs.foldl growBox b).maxx ∧
      (vs.foldl growBox b).miny ≤ b.miny ∧ b.maxy ≤ (vs.foldl growBox b).maxy ∧
      ∀ v ∈ vs, (vs.foldl growBox b).minx ≤ v.x ∧ v.x ≤ (vs.foldl growBox b).maxx ∧
        (vs.foldl growBox b).miny ≤ v.y ∧ v.y ≤ (vs.foldl growBox b).maxy := by
  induction vs generalizing b with
  | nil => simp
  | cons w vs ih =>
    obtain ⟨h1, h2, h3, h4, h5⟩ := ih (growBox b w)
    simp only [List.foldl_cons]
    generalize vs.foldl growBox (growBox b w) = r at *
    have g1 : (growBox b w).minx ≤ b.minx ∧ (growBox b w).minx ≤ w.x := by
      simp only [growBox]; split_ifs <;> constructor <;> linarith
    have g2 : b.maxx ≤ (growBox b w).maxx ∧ w.x ≤ (growBox b w).maxx := by
      simp only [growBox]; split_ifs <;> constructor <;> linarith
    have g3 : (growBox b w).miny ≤ b.miny ∧ (growBox b w).miny ≤ w.y := by
      simp only [growBox]; split_ifs <;> constructor <;> linarith
    have g4 : b.maxy ≤ (growBox b w).maxy ∧ w.y ≤ (growBox b w).maxy := by
      simp only [growBox]; split_ifs <;> constructor <;> linarith
    refine ⟨le_trans h1 g1.1, le_trans g2.1 h2, le_trans h3 g3.1, le_trans g4.1 h4, ?_⟩
    intro v hv
    rcases List.mem_cons.mp hv with rfl | hv
    · exact ⟨le_trans h1 g1.2, le_trans g2.2 h2, le_trans h3 g3.2, le_trans g4.2 h4⟩
    · exact h5 v hv

/-- Any bounds of the start and the vertices bound the box. -/
theorem box_within (vs : List (Pt K)) (b : Box K) (x0 x1 y0 y1 : K → Prop)
    (hb : x0 b.minx ∧ x1 b.maxx ∧ y0 b.miny ∧ y1 b.maxy) (hv : ∀ v ∈ vs, x0 v.x ∧ x1 v.x ∧ y0 v.y ∧ y1 v.y) :
    x0 (vs.foldl growBox b).minx ∧ x1 (vs.foldl growBox b).maxx ∧ y0 (vs.foldl growBox b).miny ∧
      y1 (vs.foldl growBox b).maxy := by
  induction vs generalizing b with
  | nil => exact hb
  | cons w vs ih =>
    simp only [List.foldl_cons]
    apply ih
    · have hw := hv w (by simp)
      simp only [growBox]
      refine ⟨?_, ?_, ?_, ?_⟩
      · split_ifs; exacts [hw.1, hb.1]
      · split_ifs; exacts [hw.2.1, hb.2.1]
      · split_ifs; exacts [hw.2.2.1, hb.2.2.1]
      · split_ifs; exacts [hw.2.2.2, hb.2.2.2]
    · exact fun v h => hv v (by simp [h])

theorem onSeg_between {p a b : Pt K} (h : OnSeg p a b) {lo hi : K} (f : Pt K → K)
    (hf : f = Pt.x ∨ f = Pt.y) (ha : lo ≤ f a ∧ f a ≤ hi) (hb : lo ≤ f b ∧ f b ≤ hi) : lo ≤ f p ∧ f p ≤ hi := by
  obtain ⟨t, t0, t1, hx, hy⟩ := h
  have e : f p = (1 - t) * f a + t * f b := by
    rcases hf with rfl | rfl
    · rw [hx]; ring
    · rw [hy]; ring
  rw [e]
  constructor
  · nlinarith
  · nlinarith

/-- No net crossings for points left of, right of, above or below all vertices. -/
theorem xors_outside (poly : List (Pt K)) (p : Pt K)
    (h : (∀ v ∈ poly, v.x < p.x) ∨ (∀ v ∈ poly, p.x < v.x) ∨ (∀ v ∈ poly, v.y < p.y) ∨ (∀ v ∈ poly, p.y < v.y)) :
    xors ((edges poly).map (fun e => crosses p e.1 e.2)) = false := by
  have hx : ∀ a b : Pt K, (a.y < p.y ∧ b.y ≥ p.y ∨ b.y < p.y ∧ a.y ≥ p.y) →
      ∃ t : K, 0 ≤ t ∧ t ≤ 1 ∧ (p.y - a.y) / (b.y - a.y) = t := by
    intro a b h
    refine ⟨_, ?_, ?_, rfl⟩
    · rcases h with ⟨h1, h2⟩ | ⟨h1, h2⟩
      · exact div_nonneg (by linarith) (by linarith)
      · exact div_nonneg_of_nonpos (by linarith) (by linarith)
    · rcases h with ⟨h1, h2⟩ | ⟨h1, h2⟩
      · exact (div_le_one (by linarith)).mpr (by linarith)
      · exact (div_le_one_of_neg (by linarith)).mpr (by linarith)
  have zero : (∀ e ∈ edges poly, crosses p e.1 e.2 = false) → xors ((edges poly).map (fun e => crosses p e.1 e.2)) = false := by
    intro hz
    rw [List.map_congr_left hz]
    generalize edges poly = es
    induction es with
    | nil => rfl
    | cons e es ih => simpa [xors] using ih
  rcases h with h | h | h | h
  · rw [← xors_ends (fun v => decide (v.y < p.y)) poly]
    congr 1
    apply List.map_congr_left
    intro e he
    obtain ⟨m1, m2⟩ := mem_edges he
    by_cases hs : (e.1.y < p.y ∧ e.2.y ≥ p.y ∨ e.2.y < p.y ∧ e.1.y ≥ p.y)
    · have hlt : e.1.x + (p.y - e.1.y) / (e.2.y - e.1.y) * (e.2.x - e.1.x) < p.x := by
        obtain ⟨t, t0, t1, ht⟩ := hx e.1 e.2 hs
        rw [ht]
        have := h _ m1
        have := h _ m2
        by_cases h0 : t = 0
        · rw [h0]; linarith
        · have : 0 < t := lt_of_le_of_ne t0 (Ne.symm h0)
          nlinarith
      unfold crosses
      rw [decide_eq_true ⟨hs, hlt⟩]
      rcases hs with ⟨h1, h2⟩ | ⟨h1, h2⟩
      · rw [decide_eq_true h1, decide_eq_false (not_lt.mpr h2)]; rfl
      · rw [decide_eq_true h1, decide_eq_false (not_lt.mpr h2)]; rfl
    · rw [crosses_same]
      · push Not at hs
        by_cases h1 : e.1.y < p.y
        · have h2 : e.2.y < p.y := hs.1 h1
          rw [decide_eq_true h1, decide_eq_true h2]; rfl
        · have h2 : ¬ e.2.y < p.y := fun h2 => h1 (hs.2 h2)
          rw [decide_eq_false h1, decide_eq_false h2]; rfl
      · push Not at hs
        exact ⟨hs.1, hs.2⟩
  · apply zero
    intro e he
    obtain ⟨m1, m2⟩ := mem_edges he
    unfold crosses
    rw [decide_eq_false_iff_not]
    rintro ⟨hs, hlt⟩
    obtain ⟨t, t0, t1, ht⟩ := hx e.1 e.2 hs
    rw [ht] at hlt
    have := h _ m1
    have := h _ m2
    nlinarith
  · apply zero
    intro e he
    obtain ⟨m1, m2⟩ := mem_edges he
    exact crosses_same (by have := h _ m1; have := h _ m2; tauto)
  · apply zero
    intro e he
    obtain ⟨m1, m2⟩ := mem_edges he
    refine crosses_same ?_
    have := h _ m1; have := h _ m2
    constructor <;> intro _ <;> linarith

/-- What the code computes for a point that the on-line test accepts for no side. -/
theorem insideFlag_off {sq : K → K} {closed : Bool} {poly : List (Pt K)} {p : Pt K}
    (h : ∀ a b, Side poly a b → pointOnLine sq 0 0 p a b = false) :
    insideFlag sq closed poly p = xors ((edges poly).map (fun e => crosses p e.1 e.2)) := by
  have hany : (edges poly).any (fun e => pointOnLine sq 0 0 p e.1 e.2) = false := by
    rw [List.any_eq_false]
    intro e he
    simpa using h e.1 e.2 ((side_iff poly e.1 e.2).mpr he)
  match hp : poly with
  | [] => rfl
  | v :: vs =>
    unfold insideFlag
    simp only
    have hw := box_grows (v :: vs) ⟨v.x, v.x, v.y, v.y⟩
    generalize (v :: vs).foldl growBox ⟨v.x, v.x, v.y, v.y⟩ = b at hw
    obtain ⟨-, -, -, -, hw⟩ := hw
    split_ifs with hout
    · symm
      apply xors_outside
      rcases hout with h1 | h1 | h1 | h1
      · left; intro w hw'; have := (hw w hw').2.1; linarith
      · right; left; intro w hw'; have := (hw w hw').1; linarith
      · right; right; left; intro w hw'; have := (hw w hw').2.2.2; linarith
      · right; right; right; intro w hw'; have := (hw w hw').2.2.1; linarith
    · rw [scan_eq, hany]
      simp

/-- A point accepted for some side, or on it, and inside the bounding box. -/
theorem insideFlag_on {sq : K → K} (hs : IsSqrt sq) {closed : Bool} {poly : List (Pt K)} {p : Pt K} {a c : Pt K}
    (hside : Side poly a c) (h : OnSeg p a c) : insideFlag sq closed poly p = closed := by
  have he := (side_iff poly a c).mp hside
  obtain ⟨ma, mc⟩ := mem_edges he
  match hp : poly with
  | [] => simp at ma
  | v :: vs =>
    unfold insideFlag
    simp only
    have hw := box_grows (v :: vs) ⟨v.x, v.x, v.y, v.y⟩
    generalize (v :: vs).foldl growBox ⟨v.x, v.x, v.y, v.y⟩ = b at hw
    obtain ⟨-, -, -, -, hw⟩ := hw
    have h1 := onSeg_between h Pt.x (Or.inl rfl) ⟨(hw a ma).1, (hw a ma).2.1⟩ ⟨(hw c mc).1, (hw c mc).2.1⟩
    have h2 := onSeg_between h Pt.y (Or.inr rfl) ⟨(hw a ma).2.2.1, (hw a ma).2.2.2⟩ ⟨(hw c mc).2.2.1, (hw c mc).2.2.2⟩
    rw [if_neg (by
      rintro (h' | h' | h' | h')
      · linarith [h1.2]
      · linarith [h1.1]
      · linarith [h2.2]
      · linarith [h2.1]), scan_eq, if_pos]
    rw [List.any_eq_true]
    exact ⟨(a, c), he, pointOnLine_of_onSeg hs (le_refl _) (le_refl _) h⟩

end Verif.Polygon
