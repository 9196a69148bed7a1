import Verif.Gate.PropsTable

/-!
# C72: discharge read from a rating table
-/

namespace Verif.Gate

set_option linter.unusedSectionVars false

variable {K : Type*} [Field K] [LinearOrder K] [IsStrictOrderedRing K]

theorem count_tails (t : K) : ∀ {l : List (Curve K)}, (l.IsChain fun a b => a.tw < b.tw) → ∀ (i : ℕ) (c : Curve K), l[i]? = some c →
    (c.tw ≤ t ↔ i < l.countP fun c => decide (c.tw ≤ t)) := by
  intro l
  induction l with
  | nil => intro _ i c h; cases h
  | cons a l ih =>
    intro h i c hc
    have hall : ∀ (m : List (Curve K)) (a : Curve K), ((a :: m).IsChain fun a b => a.tw < b.tw) → ∀ c ∈ m, a.tw < c.tw := by
      intro m
      induction m with
      | nil => intro a _ c hc; cases hc
      | cons b m ihm =>
        intro a h c hc
        obtain ⟨h1, h2⟩ := List.isChain_cons_cons.mp h
        rcases List.mem_cons.mp hc with rfl | hc
        · exact h1
        · exact h1.trans (ihm b h2 c hc)
    by_cases hat : a.tw ≤ t
    · rw [List.countP_cons_of_pos (by simpa using hat)]
      cases i with
      | zero =>
        have : a = c := by simpa using hc
        subst this
        exact ⟨fun _ => Nat.succ_pos _, fun _ => hat⟩
      | succ i =>
        rw [ih (List.IsChain.tail h) i c (by simpa using hc)]
        omega
    · have hz : l.countP (fun c => decide (c.tw ≤ t)) = 0 := by
        rw [List.countP_eq_zero]
        intro c hc
        have := hall l a h c hc
        simp only [decide_eq_true_eq, not_le]
        exact (not_le.mp hat).trans this
      rw [List.countP_cons_of_neg (by simpa using hat), hz]
      have hac : a.tw ≤ c.tw := by
        rcases List.mem_cons.mp (List.mem_of_getElem? hc) with rfl | hc'
        · exact le_rfl
        · exact (hall l a h c hc').le
      constructor
      · intro hct
        exact absurd (hac.trans hct) hat
      · intro h0
        omega

/-- Consecutive curves: `a` is for the highest tail water that is not above `tw`, `b` the next if there is one. -/
def Around (r : Rating K) (tw : K) (a : Curve K) (b : Option (Curve K)) : Prop :=
  ∃ i : ℕ, r.curves[i]? = some a ∧ r.curves[i + 1]? = b ∧ a.tw ≤ tw ∧ ∀ c ∈ b, tw < c.tw

/-- The tail water is covered by the curves. -/
def Covered (r : Rating K) (tw : K) : Prop := (∃ c ∈ r.curves.head?, c.tw ≤ tw) ∧ ∃ c ∈ r.curves, tw ≤ c.tw

theorem around_exists {r : Rating K} (h : r.Ok) {tw : K} (hc : Covered r tw) : ∃ a b, Around r tw a b := by
  obtain ⟨⟨c, hc, hct⟩, -⟩ := hc
  have h0 : r.curves[0]? = some c := by rw [← List.head?_eq_getElem?]; exact hc
  have hpos := (count_tails tw h.tails 0 c h0).mp hct
  have hle := List.countP_le_length (l := r.curves) (p := fun c => decide (c.tw ≤ tw))
  have hlt : (r.curves.countP fun c => decide (c.tw ≤ tw)) - 1 < r.curves.length := by omega
  refine ⟨r.curves[(r.curves.countP fun c => decide (c.tw ≤ tw)) - 1], r.curves[(r.curves.countP fun c => decide (c.tw ≤ tw)) - 1 + 1]?,
    (r.curves.countP fun c => decide (c.tw ≤ tw)) - 1, List.getElem?_eq_getElem hlt, rfl, ?_, ?_⟩
  · exact (count_tails tw h.tails _ _ (List.getElem?_eq_getElem hlt)).mpr (by omega)
  · intro c hc
    by_contra hn
    have := (count_tails tw h.tails _ c hc).mp (not_lt.mp hn)
    omega

/-- The evaluation, with the two curves named. -/
theorem flow_eq {r : Rating K} (h : r.Ok) {hw tw : K} (h1 : r.lo ≤ hw) (h2 : hw ≤ r.hi) (hc : Covered r tw) {a : Curve K} {b : Option (Curve K)}
    (hab : Around r tw a b) :
    r.flow hw tw =
      let lowerHw := hw - tw + a.tw
      let upperHw := if b.isSome then hw - tw + (b.getD a).tw else lowerHw
      let w0 := if b.isSome then tw - a.tw else 0
      let w1 := if b.isSome then (b.getD a).tw - tw else 1
      if lowerHw > max a.hwMax r.hi then none
      else if upperHw > max (b.getD a).hwMax r.hi then none
      else
        match (if lowerHw ≤ a.hwMax then interp a.data lowerHw else interp r.free hw),
          (if upperHw < (b.getD a).hwMax then interp (b.getD a).data upperHw else interp r.free hw) with
        | some q0, some q1 => some ((w0 * q1 + w1 * q0) / (w0 + w1))
        | _, _ => none := by
  obtain ⟨i, i1, i2, i3, i4⟩ := hab
  obtain ⟨⟨c, hc0, hct⟩, c', hc', hct'⟩ := hc
  have hi : (r.curves.countP fun c => decide (c.tw ≤ tw)) - 1 = i := by
    have h5 := (count_tails tw h.tails i a i1).mp i3
    have h6 : (r.curves.countP fun c => decide (c.tw ≤ tw)) ≤ i + 1 := by
      by_contra hn
      have hle := List.countP_le_length (l := r.curves) (p := fun c => decide (c.tw ≤ tw))
      have hlt : i + 1 < r.curves.length := by omega
      have he : r.curves[i + 1]? = some r.curves[i + 1] := List.getElem?_eq_getElem hlt
      have := (count_tails tw h.tails (i + 1) _ he).mpr (by omega)
      rw [i2] at he
      exact absurd this (not_le.mpr (i4 _ he))
    omega
  have hlen : i + 1 < r.curves.length ↔ b.isSome = true := by
    rw [← i2]
    simp
  have hsign : ¬ ((if b.isSome then tw - a.tw else 0) < 0 ∨ (if b.isSome then (b.getD a).tw - tw else 1) < 0) := by
    rintro (hx | hx)
    · split_ifs at hx
      · linarith
      · exact lt_irrefl _ hx
    · split_ifs at hx with hb
      · obtain ⟨d, hd⟩ := Option.isSome_iff_exists.mp hb
        have := i4 d hd
        rw [hd] at hx
        simp only [Option.getD_some] at hx
        linarith
      · linarith [zero_lt_one (α := K)]
  unfold Rating.flow
  rw [if_neg (not_lt.mpr h1), if_neg (not_lt.mpr h2), if_neg (fun hx => absurd (hx c' hc') (not_lt.mpr hct')),
    if_neg (fun hx => absurd (hx c hc0) (not_lt.mpr hct))]
  simp only [hi, i1, i2, hlen]
  rw [if_neg hsign]
  rfl

/-- Below the lowest head water of the free flow curve there is no flow. Reversal, if allowed, changes the sign; if not, a tail water above the
head water is refused. -/
theorem C72_reversal (r : Rating K) (hw tw : K) :
    (hw ≠ tw → r.call true hw tw = (r.call true tw hw).map (- ·)) ∧
    (hw < tw → r.call false hw tw = none) ∧ (tw ≤ hw → r.call false hw tw = r.call true hw tw) ∧
    (tw ≤ hw → hw < r.lo → r.call true hw tw = some 0) := by
  have hneg : ∀ x : Option K, (x.map (· * 1)).map (- ·) = x.map (· * -1) := by
    intro x; cases x <;> simp
  have hneg' : ∀ x : Option K, (x.map (· * -1)).map (- ·) = x.map (· * 1) := by
    intro x; cases x <;> simp
  refine ⟨fun hne => ?_, fun h => ?_, fun h => ?_, fun h h' => ?_⟩
  · rcases lt_or_gt_of_ne hne with h | h
    · unfold Rating.call
      rw [if_pos h, if_neg (not_lt.mpr h.le), hneg]
      rfl
    · unfold Rating.call
      rw [if_pos h, if_neg (not_lt.mpr h.le)]
      simp only [if_true]
      rw [hneg']
  · unfold Rating.call
    rw [if_pos h]
    rfl
  · unfold Rating.call
    rw [if_neg (not_lt.mpr h), if_neg (not_lt.mpr h)]
  · unfold Rating.call Rating.flow
    rw [if_neg (not_lt.mpr h), if_pos h']
    simp

theorem call_forward (r : Rating K) {hw tw : K} (h : tw ≤ hw) (rev : Bool) : r.call rev hw tw = r.flow hw tw := by
  unfold Rating.call
  rw [if_neg (not_lt.mpr h)]
  cases r.flow hw tw <;> simp

theorem curve_value {c : Curve K} (h : c.Ok) {x : K} (h1 : c.tw ≤ x) (h2 : x ≤ c.hwMax) :
    ∃ y, interp c.data x = some y ∧ OnCurve c.data x y ∧ 0 ≤ y ∧ (x = c.tw → y = 0) ∧ (c.tw < x → 0 < y) := by
  obtain ⟨b, hb, hbm⟩ := Option.map_eq_some_iff.mp h.last
  obtain ⟨y, y1, y2, y3, -, y5, y6⟩ := interp_spec h.rising h.first hb (by rw [hbm]; exact h.range) h1 (by rw [hbm]; exact h2)
  exact ⟨y, y1, y2, y3, y5, y6⟩

theorem free_value {r : Rating K} (h : r.Ok) {x : K} (h1 : r.lo ≤ x) (h2 : x ≤ r.hi) : ∃ y, interp r.free x = some y ∧ OnCurve r.free x y ∧ 0 ≤ y ∧ (r.lo < x → 0 < y) := by
  obtain ⟨q, hq, hf⟩ := h.first
  obtain ⟨b, hb, hbm⟩ := Option.map_eq_some_iff.mp h.last
  obtain ⟨y, y1, y2, y3, -, -, y6⟩ := interp_spec h.rising hf hb (by rw [hbm]; exact h.range) h1 (by rw [hbm]; exact h2)
  exact ⟨y, y1, y2, hq.trans y3, fun hx => hq.trans_lt (y6 hx)⟩

/-- Between two tail waters the discharge is the mean of the values of the two curves at the same loss of head, weighted by closeness. -/
theorem C72_between {r : Rating K} (h : r.Ok) {hw tw : K} (hle : tw ≤ hw) (h1 : r.lo ≤ hw) (h2 : hw ≤ r.hi) (hc : Covered r tw) {a b : Curve K}
    (hab : Around r tw a (some b)) (ha : a.tw + (hw - tw) ≤ a.hwMax) (hb : b.tw + (hw - tw) < b.hwMax) (rev : Bool) :
    ∃ qa qb, OnCurve a.data (a.tw + (hw - tw)) qa ∧ OnCurve b.data (b.tw + (hw - tw)) qb ∧
      r.call rev hw tw = some (((b.tw - tw) * qa + (tw - a.tw) * qb) / (b.tw - a.tw)) := by
  obtain ⟨i, i1, i2, i3, i4⟩ := id hab
  have hao := h.curves a (List.mem_of_getElem? i1)
  have hbo := h.curves b (List.mem_of_getElem? i2)
  obtain ⟨qa, a1, a2, -⟩ := curve_value hao (x := hw - tw + a.tw) (by linarith) (by linarith)
  obtain ⟨qb, b1, b2, -⟩ := curve_value hbo (x := hw - tw + b.tw) (by linarith) (by linarith)
  refine ⟨qa, qb, by rw [add_comm]; exact a2, by rw [add_comm]; exact b2, ?_⟩
  rw [call_forward r hle, flow_eq h h1 h2 hc hab]
  simp only [Option.isSome_some, if_true, Option.getD_some]
  rw [if_neg (not_lt.mpr (le_trans (by linarith) (le_max_left _ _))), if_neg (not_lt.mpr (le_trans (by linarith) (le_max_left _ _))),
    if_pos (by linarith : hw - tw + a.tw ≤ a.hwMax), if_pos (by linarith : hw - tw + b.tw < b.hwMax), a1, b1]
  simp only
  congr 1
  rw [show tw - a.tw + (b.tw - tw) = b.tw - a.tw by ring, add_comm]

/-- On a tail water of the table the discharge, if there is one, is that of the curve, and that of the free flow curve beyond its end. -/
theorem C72_on_curve {r : Rating K} (h : r.Ok) {hw : K} {c : Curve K} (hc : c ∈ r.curves) (hle : c.tw ≤ hw) (h1 : r.lo ≤ hw) (h2 : hw ≤ r.hi) {q : K}
    {rev : Bool} (hq : r.call rev hw c.tw = some q) :
    (hw ≤ c.hwMax → OnCurve c.data hw q) ∧ (c.hwMax < hw → OnCurve r.free hw q) := by
  obtain ⟨i, hi⟩ := List.getElem?_of_mem hc
  have hcov : Covered r c.tw := by
    refine ⟨?_, c, hc, le_rfl⟩
    obtain ⟨d, hd⟩ : ∃ d, r.curves[0]? = some d := by
      have : 0 < r.curves.length := List.length_pos_of_mem hc
      exact ⟨_, List.getElem?_eq_getElem this⟩
    refine ⟨d, by rw [List.head?_eq_getElem?]; exact hd, ?_⟩
    exact (count_tails c.tw h.tails 0 d hd).mpr (lt_of_le_of_lt (Nat.zero_le i) ((count_tails c.tw h.tails i c hi).mp le_rfl))
  have hnext : ∀ d ∈ r.curves[i + 1]?, c.tw < d.tw := by
    intro d hd
    by_contra hn
    have h5 := (count_tails d.tw h.tails i c hi).mpr (by have := (count_tails d.tw h.tails (i + 1) d hd).mp le_rfl; omega)
    have heq := le_antisymm h5 (not_lt.mp hn)
    have hch := h.tails
    rw [List.isChain_iff_getElem] at hch
    have hlt : i + 1 < r.curves.length := (List.getElem?_eq_some_iff.mp hd).1
    have := hch i hlt
    rw [List.getElem?_eq_getElem (by omega)] at hi
    rw [List.getElem?_eq_getElem hlt] at hd
    rw [Option.some.inj hi, Option.some.inj hd] at this
    exact absurd heq this.ne
  have hab : Around r c.tw c r.curves[i + 1]? := ⟨i, hi, rfl, le_rfl, hnext⟩
  rw [call_forward r hle, flow_eq h h1 h2 hcov hab] at hq
  have hw1 : (if r.curves[i + 1]?.isSome = true then (r.curves[i + 1]?.getD c).tw - c.tw else (1 : K)) ≠ 0 := by
    split_ifs with hs
    · obtain ⟨d, hd⟩ := Option.isSome_iff_exists.mp hs
      have := hnext d hd
      rw [hd, Option.getD_some]
      exact (sub_pos.mpr this).ne'
    · exact one_ne_zero
  simp only [sub_add_cancel, sub_self, ite_self, zero_mul, zero_add] at hq
  generalize (if r.curves[i + 1]?.isSome = true then (r.curves[i + 1]?.getD c).tw - c.tw else (1 : K)) = w at hq hw1
  generalize (if r.curves[i + 1]?.isSome = true then hw - c.tw + (r.curves[i + 1]?.getD c).tw else hw) = u at hq
  rw [if_neg (not_lt.mpr (h2.trans (le_max_right _ _)))] at hq
  have hval : ∀ x y : Option K, (match x, y with | some q0, some _ => some (w * q0 / w) | _, _ => none) = some q → x = some q := by
    intro x y hxy
    cases x <;> cases y <;> simp at hxy
    rw [← hxy, mul_div_assoc, mul_comm, div_mul_cancel₀ _ hw1]
  by_cases hu : u > max (r.curves[i + 1]?.getD c).hwMax r.hi
  · rw [if_pos hu] at hq
    cases hq
  rw [if_neg hu] at hq
  have := hval _ _ hq
  have hco := h.curves c hc
  constructor
  · intro hx
    rw [if_pos hx] at this
    obtain ⟨y, y1, y2, -⟩ := curve_value hco hle hx
    rw [y1] at this
    exact Option.some.inj this ▸ y2
  · intro hx
    rw [if_neg (not_le.mpr hx)] at this
    obtain ⟨y, y1, y2, -⟩ := free_value h h1 h2
    rw [y1] at this
    exact Option.some.inj this ▸ y2

/-- Where the tail water is covered by the curves: which levels are read, and the sign of what is read. -/
theorem C72_defined {r : Rating K} (h : r.Ok) {hw tw : K} (hle : tw ≤ hw) (h1 : r.lo ≤ hw) (h2 : hw ≤ r.hi) (hc : Covered r tw) {a : Curve K}
    {b : Option (Curve K)} (hab : Around r tw a b) (hb : ∀ d ∈ b, d.tw + (hw - tw) ≤ max d.hwMax r.hi) (rev : Bool) :
    ∃ q, r.call rev hw tw = some q ∧ 0 ≤ q ∧ (hw = tw → q = 0) ∧ (tw < hw → r.lo < hw → 0 < q) := by
  obtain ⟨i, i1, i2, i3, i4⟩ := id hab
  have hao := h.curves a (List.mem_of_getElem? i1)
  rw [call_forward r hle, flow_eq h h1 h2 hc hab]
  obtain ⟨qf, f1, -, f3, f4⟩ := free_value h h1 h2
  have hlower : ∃ q, (if hw - tw + a.tw ≤ a.hwMax then interp a.data (hw - tw + a.tw) else interp r.free hw) = some q ∧ 0 ≤ q ∧
      (hw = tw → q = 0) ∧ (tw < hw → r.lo < hw → 0 < q) := by
    by_cases hx : hw - tw + a.tw ≤ a.hwMax
    · rw [if_pos hx]
      obtain ⟨q, q1, -, q3, q4, q5⟩ := curve_value hao (x := hw - tw + a.tw) (by linarith) hx
      exact ⟨q, q1, q3, fun he => q4 (by rw [he]; ring), fun hl _ => q5 (by linarith)⟩
    · rw [if_neg hx]
      exact ⟨qf, f1, f3, fun he => absurd (by rw [he]; linarith [hao.range]) hx, fun _ hl => f4 hl⟩
  obtain ⟨qa, ha, ha0, ha1, ha2⟩ := hlower
  cases b with
  | none =>
    simp only [Option.isSome_none, Option.getD_none, ha, Bool.false_eq_true, if_false]
    have hm : ¬ hw - tw + a.tw > max a.hwMax r.hi := not_lt.mpr (le_trans (by linarith) (le_max_right _ _))
    rw [if_neg hm, if_neg hm]
    have hup : ∃ q, (if hw - tw + a.tw < a.hwMax then interp a.data (hw - tw + a.tw) else interp r.free hw) = some q := by
      by_cases hx : hw - tw + a.tw < a.hwMax
      · rw [if_pos hx]
        obtain ⟨q, q1, -⟩ := curve_value hao (x := hw - tw + a.tw) (by linarith) hx.le
        exact ⟨q, q1⟩
      · rw [if_neg hx]
        exact ⟨qf, f1⟩
    obtain ⟨qb, hb⟩ := hup
    rw [hb]
    refine ⟨qa, ?_, ha0, ha1, ha2⟩
    simp
  | some b =>
    have hbo := h.curves b (List.mem_of_getElem? i2)
    have htb := i4 b rfl
    have hup : ∃ q, (if hw - tw + b.tw < b.hwMax then interp b.data (hw - tw + b.tw) else interp r.free hw) = some q ∧ 0 ≤ q ∧
        (hw = tw → q = 0) := by
      by_cases hx : hw - tw + b.tw < b.hwMax
      · rw [if_pos hx]
        obtain ⟨q, q1, -, q3, q4, q5⟩ := curve_value hbo (x := hw - tw + b.tw) (by linarith) hx.le
        exact ⟨q, q1, q3, fun he => q4 (by rw [he]; ring)⟩
      · rw [if_neg hx]
        exact ⟨qf, f1, f3, fun he => absurd (by rw [he]; linarith [hbo.range]) hx⟩
    obtain ⟨qb, hbq, hb0, hb1⟩ := hup
    simp only [Option.isSome_some, Option.getD_some, if_true, ha, hbq]
    rw [if_neg (not_lt.mpr (le_trans (by linarith) (le_max_right _ _))), if_neg (not_lt.mpr (le_trans (by linarith) (hb b rfl)))]
    have hs : 0 < tw - a.tw + (b.tw - tw) := by linarith
    have hw0 : 0 ≤ tw - a.tw := by linarith
    have hw1 : 0 < b.tw - tw := by linarith
    refine ⟨_, rfl, by positivity, fun he => ?_, fun hl hl' => ?_⟩
    · rw [ha1 he, hb1 he]; simp
    · have := ha2 hl hl'
      positivity

/-- Still water does not flow where the curves cover it. -/
theorem C72_still_water {r : Rating K} (h : r.Ok) {t : K} (h2 : t ≤ r.hi) (hc : Covered r t) (rev : Bool) : r.call rev t t = some 0 := by
  by_cases h1 : t < r.lo
  · rw [call_forward r le_rfl]
    unfold Rating.flow
    rw [if_pos h1]
  · obtain ⟨a, b, hab⟩ := around_exists h hc
    have hb : ∀ d ∈ b, d.tw + (t - t) ≤ max d.hwMax r.hi := by
      intro d hd
      obtain ⟨i, -, i2, -⟩ := hab
      rw [sub_self, add_zero]
      rw [hd] at i2
      exact (h.curves d (List.mem_of_getElem? i2)).range.le.trans (le_max_left _ _)
    obtain ⟨q, q1, -, q3, -⟩ := C72_defined h le_rfl (not_lt.mp h1) h2 hc hab hb rev
    rw [q1, q3 rfl]

/-- Water never goes from the lower to the higher level. -/
theorem C72_sign {r : Rating K} (h : r.Ok) {hw tw q : K} {rev : Bool} (hq : r.call rev hw tw = some q) :
    (tw ≤ hw → 0 ≤ q) ∧ (hw < tw → q ≤ 0) := by
  have key : ∀ {x y v : K}, y ≤ x → r.flow x y = some v → 0 ≤ v := by
    intro x y v hxy hv
    by_cases h1 : x < r.lo
    · unfold Rating.flow at hv
      rw [if_pos h1] at hv
      exact (Option.some.inj hv).le
    by_cases h2 : r.hi < x
    · unfold Rating.flow at hv
      rw [if_neg h1, if_pos h2] at hv
      cases hv
    have h1' := not_lt.mp h1
    have h2' := not_lt.mp h2
    by_cases h3 : ∀ c ∈ r.curves, c.tw < y
    · unfold Rating.flow at hv
      rw [if_neg h1, if_neg h2, if_pos h3] at hv
      cases hv
    by_cases h4 : ∀ c ∈ r.curves.head?, y < c.tw
    · unfold Rating.flow at hv
      rw [if_neg h1, if_neg h2, if_neg h3, if_pos h4] at hv
      obtain ⟨w, w1, -, w3, -⟩ := free_value h h1' h2'
      rw [w1] at hv
      exact Option.some.inj hv ▸ w3
    have hc : Covered r y := by
      push Not at h3 h4
      exact ⟨h4, h3⟩
    obtain ⟨a, b, hab⟩ := around_exists h hc
    by_cases hb : ∀ d ∈ b, d.tw + (x - y) ≤ max d.hwMax r.hi
    · obtain ⟨w, w1, w2, -⟩ := C72_defined h hxy h1' h2' hc hab hb true
      rw [call_forward r hxy, hv] at w1
      exact Option.some.inj w1 ▸ w2
    · push Not at hb
      obtain ⟨d, hd, hd2⟩ := hb
      rw [flow_eq h h1' h2' hc hab, hd] at hv
      simp only [Option.isSome_some, Option.getD_some, if_true] at hv
      by_cases hx1 : x - y + a.tw > max a.hwMax r.hi
      · rw [if_pos hx1] at hv
        cases hv
      · rw [if_neg hx1, if_pos (by linarith : x - y + d.tw > max d.hwMax r.hi)] at hv
        cases hv
  constructor
  · intro hle
    rw [call_forward r hle] at hq
    exact key hle hq
  · intro hlt
    unfold Rating.call at hq
    rw [if_pos hlt] at hq
    cases rev with
    | false => cases hq
    | true =>
      simp only [if_true] at hq
      obtain ⟨v, hv, hv2⟩ := Option.map_eq_some_iff.mp hq
      have := key hlt.le hv
      linarith

/-! ## A table -/

def freeRows : List (ℚ × ℚ) := [(0, 0), (10, 100)]
def columns : List (Column ℚ) := [⟨[(2, 0), (4, 40)], 1, 2, 4⟩, ⟨[(4, 0), (5, 20), (6, 60)], 0, 4, 6⟩]

def table : Rating ℚ := ⟨freeRows, 0, 10, [⟨2, 4, [(2, 0), (4, 40)]⟩, ⟨4, 6, [(4, 0), (5, 20), (6, 60)]⟩]⟩

theorem table_build : build 0 freeRows (columns.map fun c => padded c.rows c.blanks) = some table := by decide +kernel

theorem table_ok : table.Ok := by
  obtain ⟨r, hr, h, -⟩ := C72_build (0 : ℚ) (free := freeRows) (lo := 0) (q0 := 0) (hi := 10) (by simp [Rows, freeRows]) rfl le_rfl rfl (by norm_num)
    columns (by
      intro c hc
      simp only [columns, List.mem_cons, List.not_mem_nil, or_false] at hc
      rcases hc with rfl | rfl <;> refine ⟨by simp [Rows]; norm_num, rfl, rfl, by norm_num⟩)
    (by simp [columns]; norm_num)
  rw [table_build] at hr
  exact Option.some.inj hr ▸ h

/-- A table with two curves is in order; read between them it gives the mean, turned round if the levels are swapped, and no flow in still water. -/
example : table.Ok ∧ Covered table 3 ∧ table.call true 4 3 = some 20 ∧ table.call true 3 4 = some (-20) ∧ table.call true 3 3 = some 0 := by
  refine ⟨table_ok, ⟨⟨_, rfl, by norm_num⟩, _, List.mem_cons_of_mem _ List.mem_cons_self, by norm_num⟩, ?_, ?_, ?_⟩ <;> decide +kernel

/-- The discharge falls although the head water rises: at head water 5 the curve for tail water 4 ends, and the free flow curve is read at the lower
head water 5 instead of 6. -/
theorem C72_more_headwater_less_flow : ∃ r : Rating ℚ, r.Ok ∧ ∃ hw hw' tw q q', tw < hw ∧ hw < hw' ∧ r.call true hw tw = some q ∧
    r.call true hw' tw = some q' ∧ q' < q :=
  ⟨table, table_ok, 49 / 10, 5, 3, 47, 45, by norm_num, by norm_num, by decide +kernel, by decide +kernel, by norm_num⟩

/-- Still water below the lowest tail water of the curves flows, at the rate of free flow. -/
theorem C72_still_water_flows : ∃ r : Rating ℚ, r.Ok ∧ ∃ t q, r.lo ≤ t ∧ t ≤ r.hi ∧ r.call true t t = some q ∧ 0 < q :=
  ⟨table, table_ok, 1, 10, by decide +kernel, by decide +kernel, by decide +kernel, by norm_num⟩

end Verif.Gate
