import Verif.Tools.Spec

/-! C32: histograms and percentile reports. -/

set_option linter.unusedSectionVars false

namespace Verif.Tools

variable {K : Type*} [Field K] [LinearOrder K] [IsStrictOrderedRing K]

theorem maxOf_spec (a : List K) (m : K) (h : maxOf a = some m) : IsMax a m := by
  cases a with
  | nil => simp [maxOf] at h
  | cons x l =>
    simp only [maxOf, Option.some.injEq] at h
    subst h
    have : ∀ (l : List K) (x : K), (l.foldl max x = x ∨ l.foldl max x ∈ l) ∧ x ≤ l.foldl max x ∧
        ∀ y ∈ l, y ≤ l.foldl max x := by
      intro l
      induction l with
      | nil => intro x; simp
      | cons b l ih =>
        intro x
        obtain ⟨h1, h2, h3⟩ := ih (max x b)
        simp only [List.foldl_cons]
        refine ⟨?_, (le_max_left _ _).trans h2, ?_⟩
        · rcases h1 with h1 | h1
          · rcases max_choice x b with h | h
            · left; rw [h1, h]
            · right; rw [h1, h]; exact List.mem_cons_self
          · right; exact List.mem_cons_of_mem _ h1
        · intro y hy
          rcases List.mem_cons.1 hy with rfl | hy
          · exact (le_max_right _ _).trans h2
          · exact h3 y hy
    obtain ⟨h1, h2, h3⟩ := this l x
    refine ⟨?_, ?_⟩
    · rcases h1 with h1 | h1
      · rw [h1]; exact List.mem_cons_self
      · exact List.mem_cons_of_mem _ h1
    · intro y hy
      rcases List.mem_cons.1 hy with rfl | hy
      · exact h2
      · exact h3 y hy

theorem minOf_spec (a : List K) (m : K) (h : minOf a = some m) : IsMin a m := by
  cases a with
  | nil => simp [minOf] at h
  | cons x l =>
    simp only [minOf, Option.some.injEq] at h
    subst h
    have : ∀ (l : List K) (x : K), (l.foldl min x = x ∨ l.foldl min x ∈ l) ∧ l.foldl min x ≤ x ∧
        ∀ y ∈ l, l.foldl min x ≤ y := by
      intro l
      induction l with
      | nil => intro x; simp
      | cons b l ih =>
        intro x
        obtain ⟨h1, h2, h3⟩ := ih (min x b)
        simp only [List.foldl_cons]
        refine ⟨?_, h2.trans (min_le_left _ _), ?_⟩
        · rcases h1 with h1 | h1
          · rcases min_choice x b with h | h
            · left; rw [h1, h]
            · right; rw [h1, h]; exact List.mem_cons_self
          · right; exact List.mem_cons_of_mem _ h1
        · intro y hy
          rcases List.mem_cons.1 hy with rfl | hy
          · exact h2.trans (min_le_right _ _)
          · exact h3 y hy
    obtain ⟨h1, h2, h3⟩ := this l x
    refine ⟨?_, ?_⟩
    · rcases h1 with h1 | h1
      · rw [h1]; exact List.mem_cons_self
      · exact List.mem_cons_of_mem _ h1
    · intro y hy
      rcases List.mem_cons.1 hy with rfl | hy
      · exact h2
      · exact h3 y hy

theorem IsMax.unique {a : List K} {m n : K} (h : IsMax a m) (h' : IsMax a n) : m = n :=
  le_antisymm (h'.2 m h.1) (h.2 n h'.1)

theorem IsMin.unique {a : List K} {m n : K} (h : IsMin a m) (h' : IsMin a n) : m = n :=
  le_antisymm (h.2 n h'.1) (h'.2 m h.1)

theorem sort_perm (a : List K) : (sort a).Perm a := List.perm_insertionSort _ a

theorem sort_sorted (a : List K) : (sort a).Pairwise (· ≤ ·) := List.pairwise_insertionSort _ a

/-- The place found by `searchsorted` is the number of smaller values. -/
theorem searchLeft_sort (a : List K) (b : K) :
    searchLeft (sort a) b = a.countP fun x => decide (x < b) := by
  rw [← (sort_perm a).countP_eq]
  have hs := sort_sorted a
  unfold searchLeft
  generalize sort a = s at hs
  induction s with
  | nil => rfl
  | cons x s ih =>
    rw [List.pairwise_cons] at hs
    by_cases hx : x < b
    · rw [List.takeWhile_cons_of_pos (by simpa using hx), List.countP_cons_of_pos (by simpa using hx),
        List.length_cons, ih hs.2]
    · rw [List.takeWhile_cons_of_neg (by simpa using hx)]
      symm
      rw [List.length_nil, List.countP_eq_zero]
      intro y hy
      rcases List.mem_cons.1 hy with rfl | hy
      · simpa using hx
      · simpa using (not_lt.1 hx).trans (hs.1 y hy)

theorem diffs_length : ∀ l : List ℤ, (diffs l).length = l.length - 1
  | [] => rfl
  | [_] => rfl
  | x :: y :: l => by simp [diffs, diffs_length (y :: l)]

theorem diffs_getElem? : ∀ (l : List ℤ) (i : ℕ) (x y : ℤ), l[i]? = some x → l[i + 1]? = some y →
    (diffs l)[i]? = some (y - x)
  | [], i, x, y, h, _ => by simp at h
  | [a], i, x, y, h, h' => by simp at h'
  | a :: b :: l, 0, x, y, h, h' => by
    simp only [List.getElem?_cons_zero, List.getElem?_cons_succ, Option.some.injEq] at h h'
    subst h h'
    simp [diffs]
  | a :: b :: l, i + 1, x, y, h, h' => by
    simp only [List.getElem?_cons_succ] at h h'
    rw [diffs, List.getElem?_cons_succ]
    exact diffs_getElem? (b :: l) i x y h (by simpa using h')

theorem diffs_sum : ∀ (x : ℤ) (l : List ℤ), (diffs (x :: l)).sum = l.getLastD x - x
  | x, [] => by simp [diffs]
  | x, y :: l => by
    rw [diffs, List.sum_cons, diffs_sum y l, List.getLastD_cons]
    ring

theorem countP_split (a : List K) (lo hi : K) (h : lo ≤ hi) :
    (a.countP fun x => decide (x < hi)) = (a.countP fun x => decide (x < lo)) + inClass a lo hi := by
  unfold inClass
  induction a with
  | nil => rfl
  | cons x a ih =>
    simp only [List.countP_cons, ih]
    by_cases h1 : x < lo
    · have : x < hi := h1.trans_le h
      simp [h1, this, not_le.2 h1]; omega
    · have h1' := not_lt.1 h1
      by_cases h2 : x < hi
      · simp [h1, h2, h1']; omega
      · simp [h1, h2]

theorem countP_above (a : List K) (lo : K) :
    a.length = (a.countP fun x => decide (x < lo)) + above a lo := by
  unfold above
  induction a with
  | nil => rfl
  | cons x a ih =>
    simp only [List.countP_cons, List.length_cons]
    by_cases h1 : x < lo
    · simp [h1, not_le.2 h1]; omega
    · simp [h1, not_lt.1 h1]; omega

/-- C32: with bins in increasing order the `i`-th count is the number of data from `bins[i]` up to
but excluding `bins[i+1]`; the last one counts everything from the last bin up. -/
theorem C32_counts (a bins : List K) (hb : bins.Pairwise (· ≤ ·)) :
    (histogram a bins).length = bins.length ∧
    (∀ i lo hi, bins[i]? = some lo → bins[i + 1]? = some hi →
      (histogram a bins)[i]? = some (inClass a lo hi : ℤ)) ∧
    (∀ i lo, bins[i]? = some lo → i + 1 = bins.length →
      (histogram a bins)[i]? = some (above a lo : ℤ)) := by
  have hn : ∀ (i : ℕ) (b : K), bins[i]? = some b →
      ((bins.map fun b => (searchLeft (sort a) b : ℤ)) ++ [(a.length : ℤ)])[i]? =
        some ((a.countP fun x => decide (x < b) : ℕ) : ℤ) := by
    intro i b h
    have hi : i < bins.length := (List.getElem?_eq_some_iff.1 h).1
    rw [List.getElem?_append_left (by simpa using hi), List.getElem?_map, h]
    simp [searchLeft_sort]
  refine ⟨by simp [histogram, diffs_length], ?_, ?_⟩
  · intro i lo hi h1 h2
    have hle : lo ≤ hi := by
      obtain ⟨i1, e1⟩ := List.getElem?_eq_some_iff.1 h1
      obtain ⟨i2, e2⟩ := List.getElem?_eq_some_iff.1 h2
      rw [← e1, ← e2]
      exact List.pairwise_iff_getElem.1 hb i (i + 1) i1 i2 (Nat.lt_succ_self i)
    unfold histogram
    rw [diffs_getElem? _ i _ _ (hn i lo h1) (hn (i + 1) hi h2), countP_split a lo hi hle]
    push_cast; congr 1; ring
  · intro i lo h1 hlen
    unfold histogram
    rw [diffs_getElem? _ i _ (a.length : ℤ) (hn i lo h1), ]
    · congr 1
      have := countP_above a lo
      omega
    · rw [List.getElem?_append_right (by simp [hlen])]
      simp [hlen]

/-- C32: whatever the bins, the counts add up to the number of data not below the first bin. -/
theorem C32_total (a : List K) (b : K) (bins : List K) :
    (histogram a (b :: bins)).sum = (above a b : ℤ) := by
  unfold histogram
  rw [List.map_cons, List.cons_append, diffs_sum, searchLeft_sort]
  have := countP_above a b
  rw [List.getLastD_eq_getLast?]
  simp
  omega

variable [FloorRing K]

/-- C32: bins made for data that is not constant are the asked number of equally wide classes from
the least value up to, but excluding, the greatest. -/
theorem C32_bins (data : List K) (number : Option ℕ) (bins : List K) (mn mx : K)
    (hmn : IsMin data mn) (hmx : IsMax data mx) (h : createBins data number = some bins) :
    (mn = mx → bins = [mn]) ∧
    (mn < mx → bins.length = number.getD 10 ∧
      ∀ i, i < number.getD 10 → bins[i]? = some (mn + i * ((mx - mn) / (number.getD 10 : ℕ)))) := by
  unfold createBins at h
  cases hM : maxOf data with
  | none => rw [hM] at h; simp at h
  | some M =>
    cases hm : minOf data with
    | none => rw [hM, hm] at h; simp at h
    | some m =>
      rw [hM, hm] at h
      obtain rfl := (maxOf_spec data M hM).unique hmx
      obtain rfl := (minOf_spec data m hm).unique hmn
      simp only at h
      by_cases heq : M = m
      · rw [if_pos heq] at h
        simp only [Option.some.injEq] at h
        exact ⟨fun _ => h.symm, fun hlt => absurd heq hlt.ne'⟩
      · rw [if_neg heq] at h
        generalize number.getD 10 = n at h ⊢
        by_cases hn : n = 0
        · rw [if_pos hn] at h; simp at h
        · rw [if_neg hn] at h
          simp only [Option.some.injEq] at h
          refine ⟨fun e => absurd e.symm heq, fun hlt => ?_⟩
          have hn' : (n : K) ≠ 0 := Nat.cast_ne_zero.2 hn
          have hd : M - m ≠ 0 := sub_ne_zero.2 heq
          have hc : ⌈(M - m) / ((M - m) / n)⌉.toNat = n := by
            rw [div_div_cancel₀ hd, Int.ceil_natCast, Int.toNat_natCast]
          rw [← h]
          unfold arange
          rw [hc]
          refine ⟨by simp, ?_⟩
          intro i hi
          simp [hi]

/-- Bins made by `create_bins` increase and start at the least value. -/
theorem createBins_sorted (data : List K) (number : Option ℕ) (bins : List K) (mn : K)
    (hmn : IsMin data mn) (h : createBins data number = some bins) :
    bins.Pairwise (· < ·) ∧ ∃ l, bins = mn :: l := by
  obtain ⟨mx, hmx⟩ : ∃ mx, maxOf data = some mx := by
    cases data with
    | nil => exact absurd hmn.1 (by simp)
    | cons x l => exact ⟨_, rfl⟩
  have hmx' := maxOf_spec data mx hmx
  obtain ⟨h1, h2⟩ := C32_bins data number bins mn mx hmn hmx' h
  rcases (hmn.2 mx hmx'.1).eq_or_lt with he | hlt
  · rw [h1 he]; exact ⟨List.pairwise_singleton _ _, [], rfl⟩
  · obtain ⟨hlen, hget⟩ := h2 hlt
    generalize hn : number.getD 10 = n at *
    have hn0 : n ≠ 0 := by
      rintro rfl
      unfold createBins at h
      obtain ⟨mn', hmn'⟩ : ∃ m, minOf data = some m := by
        cases data with
        | nil => exact absurd hmn.1 (by simp)
        | cons x l => exact ⟨_, rfl⟩
      obtain rfl := (minOf_spec data mn' hmn').unique hmn
      rw [hmx, hmn'] at h
      simp only [hn] at h
      rw [if_neg hlt.ne', if_pos trivial] at h
      cases h
    have hpos : 0 < (mx - mn) / (n : K) := div_pos (sub_pos.2 hlt) (by positivity)
    constructor
    · rw [List.pairwise_iff_getElem]
      intro i j hi hj hij
      have ei := hget i (hlen ▸ hi)
      have ej := hget j (hlen ▸ hj)
      rw [List.getElem?_eq_getElem hi, Option.some.injEq] at ei
      rw [List.getElem?_eq_getElem hj, Option.some.injEq] at ej
      rw [ei, ej]
      have : (i : K) < j := Nat.cast_lt.2 hij
      have := mul_lt_mul_of_pos_right this hpos
      linarith
    · cases bins with
      | nil => simp at hlen; exact absurd hlen.symm hn0
      | cons b l =>
        have := hget 0 (Nat.pos_of_ne_zero hn0)
        simp at this
        exact ⟨l, by rw [this]⟩

/-- C32: a histogram over the bins made for the same data counts every value exactly once. -/
theorem C32_all (data : List K) (number : Option ℕ) (bins : List K) (hne : data ≠ [])
    (h : createBins data number = some bins) :
    (histogram data bins).sum = data.length ∧
    ∃ r, histogramRelative data bins = some r ∧ r.sum = 1 := by
  obtain ⟨mn, hmn⟩ : ∃ m, minOf data = some m := by
    cases data with
    | nil => exact absurd rfl hne
    | cons x l => exact ⟨_, rfl⟩
  have hmn' := minOf_spec data mn hmn
  obtain ⟨-, l, rfl⟩ := createBins_sorted data number bins mn hmn' h
  have hs : (histogram data (mn :: l)).sum = data.length := by
    rw [C32_total]
    congr 1
    unfold above
    rw [List.countP_eq_length]
    intro x hx
    simpa using hmn'.2 x hx
  refine ⟨hs, ?_⟩
  unfold histogramRelative
  have hl : data.length ≠ 0 := by simpa using hne
  have h0 : (histogram data (mn :: l)).sum ≠ 0 := by rw [hs]; exact_mod_cast hl
  simp only [h0, if_false]
  refine ⟨_, rfl, ?_⟩
  have hcast : ((histogram data (mn :: l)).sum : K) ≠ 0 := by exact_mod_cast h0
  have : ∀ (h : List ℤ) (c : K), (h.map fun x : ℤ => (x : K) / c).sum = (h.sum : K) / c := by
    intro h c
    induction h with
    | nil => simp
    | cons x h ih => simp [ih, add_div]
  rw [this, div_self hcast]

omit [FloorRing K] in
/-- C32: frequencies are non-negative and add up to one whenever some value reaches the first bin. -/
theorem C32_relative (a : List K) (b : K) (bins : List K) (hb : (b :: bins).Pairwise (· ≤ ·))
    (h : ∃ x ∈ a, b ≤ x) :
    ∃ r, histogramRelative a (b :: bins) = some r ∧ r.sum = 1 ∧ ∀ f ∈ r, 0 ≤ f := by
  have hs := C32_total a b bins
  have hpos : 0 < above a b := by
    unfold above
    rw [List.countP_pos_iff]
    obtain ⟨x, hx, hbx⟩ := h
    exact ⟨x, hx, by simpa using hbx⟩
  have h0 : 0 < (histogram a (b :: bins)).sum := by rw [hs]; exact_mod_cast hpos
  obtain ⟨hl, h1, h2⟩ := C32_counts a (b :: bins) hb
  have hnn : ∀ c ∈ histogram a (b :: bins), 0 ≤ c := by
    intro c hc
    obtain ⟨i, hi, rfl⟩ := List.getElem_of_mem hc
    rw [hl] at hi
    by_cases hlast : i + 1 = (b :: bins).length
    · have := h2 i _ (List.getElem?_eq_getElem hi) hlast
      rw [List.getElem?_eq_getElem (by rw [hl]; exact hi), Option.some.injEq] at this
      rw [this]; positivity
    · have hi' : i + 1 < (b :: bins).length := by omega
      have := h1 i _ _ (List.getElem?_eq_getElem hi) (List.getElem?_eq_getElem hi')
      rw [List.getElem?_eq_getElem (by rw [hl]; exact hi), Option.some.injEq] at this
      rw [this]; positivity
  unfold histogramRelative
  simp only [h0.ne', if_false]
  refine ⟨_, rfl, ?_, ?_⟩
  · have : ∀ (h : List ℤ) (c : K), (h.map fun x : ℤ => (x : K) / c).sum = (h.sum : K) / c := by
      intro h c
      induction h with
      | nil => simp
      | cons x h ih => simp [ih, add_div]
    rw [this, div_self (by exact_mod_cast h0.ne')]
  · intro f hf
    obtain ⟨c, hc, rfl⟩ := List.mem_map.1 hf
    exact div_nonneg (by exact_mod_cast hnn c hc) (by exact_mod_cast h0.le)

omit [FloorRing K] in
/-- C32: if every value lies below the first bin the frequencies are undefined (`0/0`). -/
theorem C32_relative_undefined (a : List K) (b : K) (bins : List K) (h : ∀ x ∈ a, x < b) :
    histogramRelative a (b :: bins) = none := by
  unfold histogramRelative
  have : (histogram a (b :: bins)).sum = 0 := by
    rw [C32_total]
    unfold above
    rw [Nat.cast_eq_zero, List.countP_eq_zero]
    intro x hx
    simpa using h x hx
  simp [this]

/-- C32: the order of the bins matters; a decreasing pair gives a negative count. -/
theorem C32_unsorted_bins : (histogram [(1 : ℚ), 2, 3] [3, 1])[0]? = some (-2) := by
  decide +kernel

/-- C32: the printed histogram: line `i` names the class that is counted, the classes touch, and the
last one ends with the greatest value, included. -/
theorem C32_lines (data : List K) (number : Option ℕ) (bins : List K) (mx : K)
    (hmx : IsMax data mx) (h : createBins data number = some bins) :
    (histogramLines bins mx (histogram data bins)).length = bins.length ∧
    ∀ i line, (histogramLines bins mx (histogram data bins))[i]? = some line →
      bins[i]? = some line.1 ∧
      (line.2.2.1 = false → bins[i + 1]? = some line.2.1 ∧
        line.2.2.2 = (inClass data line.1 line.2.1 : ℤ)) ∧
      (line.2.2.1 = true → i + 1 = bins.length ∧ line.2.1 = mx ∧
        line.2.2.2 = ((data.countP fun x => decide (line.1 ≤ x ∧ x ≤ line.2.1) : ℕ) : ℤ)) := by
  obtain ⟨mn, hmn⟩ : ∃ m, minOf data = some m := by
    cases data with
    | nil => exact absurd hmx.1 (by simp)
    | cons x l => exact ⟨_, rfl⟩
  obtain ⟨hs, -⟩ := createBins_sorted data number bins mn (minOf_spec data mn hmn) h
  obtain ⟨hl, h1, h2⟩ := C32_counts data bins (hs.imp le_of_lt)
  refine ⟨by simp [histogramLines, hl], ?_⟩
  intro i line hline
  unfold histogramLines at hline
  rw [List.getElem?_map, List.getElem?_zipIdx] at hline
  cases hc : (histogram data bins)[i]? with
  | none => rw [hc] at hline; simp at hline
  | some c =>
    rw [hc] at hline
    simp only [Option.map_some, Option.some.injEq, zero_add] at hline
    have hi : i < bins.length := by rw [← hl]; exact (List.getElem?_eq_some_iff.1 hc).1
    subst hline
    have hbi : bins[i]? = some (bins.getD i 0) := by
      rw [List.getElem?_eq_getElem hi, List.getD_eq_getElem _ _ hi]
    refine ⟨hbi, ?_, ?_⟩
    · intro hf
      simp only [decide_eq_false_iff_not, not_not] at hf
      have hbj : bins[i + 1]? = some (bins.getD (i + 1) 0) := by
        rw [List.getElem?_eq_getElem hf, List.getD_eq_getElem _ _ hf]
      simp only [if_pos hf]
      refine ⟨hbj, ?_⟩
      have := h1 i _ _ hbi hbj
      rw [hc] at this
      simpa using this
    · intro hf
      simp only [decide_eq_true_eq] at hf
      have hlast : i + 1 = bins.length := by omega
      simp only [if_neg hf]
      refine ⟨hlast, trivial, ?_⟩
      have := h2 i _ hbi hlast
      rw [hc, Option.some.injEq] at this
      rw [this]
      unfold above
      congr 1
      apply List.countP_congr
      intro x hx
      simp [hmx.2 x hx]

/-! ### Percentiles -/

/-- Blocks of data belonging to the lines of the report. -/
def Blocks (step : ℕ) (blocks : List (List K)) (lines : List (ℕ × K × K)) : Prop :=
  List.Forall₂ (fun b line => line.1 = b.length ∧ line.1 = step ∧
    ∀ x ∈ b, line.2.1 ≤ x ∧ x ≤ line.2.2) blocks lines

omit [FloorRing K] in
/-- The percentile loop: the lines printed so far cover the first `k` sorted values. -/
theorem percentileLoop_spec (step : ℕ) (hstep : 0 < step) (s : List K) (hs : s.Pairwise (· ≤ ·)) :
    ∀ (l : List K) (i k : ℕ) (lower : K) (acc : List (ℕ × K × K)) (blocks : List (List K)),
      s.drop i = l → i ≤ s.length → k % step = 0 → i ≤ k + step → (i ≠ 0 → k < i) →
      (i = 0 → k = 0) → (∀ x ∈ s.drop k, lower ≤ x) →
      blocks.flatten = s.take k → Blocks step blocks acc →
      ∃ blocks', 
        let r := percentileLoop step i k lower l acc
        s.length ≤ r.2.1 + step ∧ (s.length ≠ 0 → r.2.1 < s.length) ∧
        (∀ x ∈ s.drop r.2.1, r.2.2 ≤ x) ∧
        blocks'.flatten = s.take r.2.1 ∧ Blocks step blocks' r.1 ∧
        (acc.head?.map (fun x => x.2.1)).getD lower =
          (r.1.head?.map (fun x => x.2.1)).getD r.2.2 := by
  intro l
  induction l with
  | nil =>
    intro i k lower acc blocks hdrop hi hmod hik hk h0 hlow hB1 hB2
    have hlen : s.length = i := le_antisymm (by simpa using hdrop) hi
    refine ⟨blocks, ?_⟩
    simp only [percentileLoop]
    exact ⟨by omega, by rw [hlen]; exact hk, hlow, hB1, hB2, trivial⟩
  | cons a l ih =>
    intro i k lower acc blocks hdrop hi hmod hik hk h0 hlow hB1 hB2
    have hlt : i < s.length := by
      by_contra hge
      rw [List.drop_eq_nil_of_le (not_lt.1 hge)] at hdrop
      cases hdrop
    have hdrop' : s.drop (i + 1) = l := by
      rw [← List.tail_drop, hdrop]; rfl
    have hge : ∀ x ∈ s.drop i, a ≤ x := by
      have := hs.drop (i := i)
      rw [hdrop, List.pairwise_cons] at this
      rw [hdrop]
      intro x hx
      rcases List.mem_cons.1 hx with rfl | hx
      · exact le_rfl
      · exact this.1 x hx
    rw [percentileLoop]
    by_cases hc : i % step = 0 ∧ i ≠ 0
    · rw [if_pos hc]
      have hk' := hk hc.2
      have hik' : i = k + step := by
        obtain ⟨u, hu⟩ := Nat.dvd_of_mod_eq_zero hc.1
        obtain ⟨v, hv⟩ := Nat.dvd_of_mod_eq_zero hmod
        subst hu hv
        have : v < u := Nat.lt_of_mul_lt_mul_left hk'
        have h2 : step * (v + 1) ≤ step * u := Nat.mul_le_mul_left step this
        rw [Nat.mul_add, Nat.mul_one] at h2
        omega
      have htake : s.take i = s.take k ++ (s.drop k).take step := by
        rw [hik', List.take_add]
      obtain ⟨blocks', hb⟩ := ih (i + 1) i a (acc ++ [(i - k, lower, a)])
        (blocks ++ [(s.drop k).take step]) hdrop' hlt hc.1 (by omega) (by omega) (by omega) hge
        (by rw [List.flatten_append, hB1, htake]; simp)
        (by
          refine List.rel_append hB2 (List.Forall₂.cons ⟨?_, ?_, ?_⟩ List.Forall₂.nil)
          · simp; omega
          · simp; omega
          · intro x hx
            refine ⟨hlow x (List.mem_of_mem_take hx), ?_⟩
            -- values before position `i` are at most the one at `i`
            have hx' : x ∈ s.take i := by rw [htake]; exact List.mem_append_right _ hx
            have hsp : (s.take i ++ s.drop i).Pairwise (· ≤ ·) := by
              rw [List.take_append_drop]; exact hs
            rw [hdrop] at hsp
            exact (List.pairwise_append.1 hsp).2.2 x hx' a List.mem_cons_self)
      refine ⟨blocks', hb.1, hb.2.1, hb.2.2.1, hb.2.2.2.1, hb.2.2.2.2.1, ?_⟩
      rw [← hb.2.2.2.2.2]
      cases acc with
      | nil => simp
      | cons c acc => simp
    · rw [if_neg hc]
      refine ih (i + 1) k lower acc blocks hdrop' hlt hmod ?_ ?_ (by omega) hlow hB1 hB2
      · by_contra hgt
        have : i = k + step := by omega
        have h1 : i % step = 0 := by rw [this]; simpa using hmod
        have h2 : i = 0 := by
          by_contra h; exact hc ⟨h1, h⟩
        omega
      · intro _
        by_cases hi0 : i = 0
        · rw [h0 hi0]; omega
        · have := hk hi0; omega

omit [FloorRing K] in
/-- C32: the percentile report splits the sorted data into consecutive groups.  Every line but the
last describes exactly `N // 10` values, the last between one and `N // 10`; all values of a group
lie in the printed interval; the first interval starts at the least value and the last ends at the
greatest. -/
theorem C32_percentiles (a : List K) (h : 10 < a.length) :
    ∃ (lines : List (ℕ × K × K)) (final : ℕ × K × K) (blocks : List (List K)) (last : List K),
      percentiles a = lines ++ [final] ∧
      (blocks.flatten ++ last).Perm a ∧ (blocks.flatten ++ last).Pairwise (· ≤ ·) ∧
      List.Forall₂ (fun b line => line.1 = b.length ∧ line.1 = a.length / 10 ∧
        ∀ x ∈ b, line.2.1 ≤ x ∧ x ≤ line.2.2) blocks lines ∧
      final.1 = last.length ∧ 1 ≤ final.1 ∧ final.1 ≤ a.length / 10 ∧
      (∀ x ∈ last, final.2.1 ≤ x ∧ x ≤ final.2.2) ∧
      IsMin a (((lines ++ [final]).head?.map fun x => x.2.1).getD 0) ∧ IsMax a final.2.2 := by
  have hlen : (sort a).length = a.length := (sort_perm a).length_eq
  have hne : sort a ≠ [] := by
    intro h0; rw [h0] at hlen; simp at hlen; omega
  obtain ⟨mn, hmn⟩ : ∃ m, minOf (sort a) = some m := by
    cases hs : sort a with
    | nil => exact absurd hs hne
    | cons x l => exact ⟨_, rfl⟩
  obtain ⟨mx, hmx⟩ : ∃ m, maxOf (sort a) = some m := by
    cases hs : sort a with
    | nil => exact absurd hs hne
    | cons x l => exact ⟨_, rfl⟩
  have hmn' := minOf_spec _ _ hmn
  have hmx' := maxOf_spec _ _ hmx
  obtain ⟨blocks, h1, h2, h3, h4, h5, h6⟩ := percentileLoop_spec (a.length / 10) (by omega) (sort a)
    (sort_sorted a) (sort a) 0 0 mn [] [] (by simp) (by simp) (by simp) (by simp) (by simp) (by simp)
    (by simpa using hmn'.2) (by simp) List.Forall₂.nil
  unfold percentiles
  rw [if_pos h]
  simp only [hmn, hmx, Option.getD_some]
  generalize percentileLoop (a.length / 10) 0 0 mn (sort a) [] = r at *
  rw [hlen] at h1 h2
  have h2' := h2 (by omega)
  refine ⟨r.1, _, blocks, (sort a).drop r.2.1, rfl, ?_, ?_, h5, ?_, ?_, ?_, ?_, ?_, ?_⟩
  · rw [h4, List.take_append_drop]; exact sort_perm a
  · rw [h4, List.take_append_drop]; exact sort_sorted a
  · simp [hlen]
  · simp; omega
  · simp; omega
  · intro x hx
    exact ⟨h3 x hx, hmx'.2 x (List.mem_of_mem_drop hx)⟩
  · have : (((r.1 ++ [(a.length - r.2.1, r.2.2, mx)]).head?.map fun x => x.2.1).getD 0) = mn := by
      simp only [List.head?_nil, Option.map_none, Option.getD_none] at h6
      rw [h6]
      cases r.1 with
      | nil => simp
      | cons c l => simp
    rw [this]
    exact ⟨(sort_perm a).mem_iff.1 hmn'.1, fun x hx => hmn'.2 x ((sort_perm a).mem_iff.2 hx)⟩
  · exact ⟨(sort_perm a).mem_iff.1 hmx'.1, fun x hx => hmx'.2 x ((sort_perm a).mem_iff.2 hx)⟩

/-- C32, disagreement: the groups of the "10%" report need not be tenths; nineteen values are
reported in nineteen groups of one. -/
theorem C32_not_tenths :
    (percentiles ((List.range 19).map fun i : ℕ => (i : ℚ))).length = 19 := by
  decide +kernel

/-- C32, disagreement: the timestep printed for the fastest triangle is rounded down to whole
seconds, so it is `0` whenever the triangle needs steps of less than one second. -/
theorem C32_reported_timestep (radius speed : K) (hr : 0 ≤ radius) (hs : 0 < speed)
    (h : radius / speed < 1) : reportedTimestep radius speed = 0 := by
  unfold reportedTimestep
  rw [if_pos hs]
  have : ⌊radius / speed⌋ = 0 := Int.floor_eq_zero_iff.2 ⟨div_nonneg hr hs.le, h⟩
  rw [this]; simp

/-! ### Concrete cases -/

example : histogram [(1 : ℚ), 2, 2, 3, 5] [1, 2, 4] = [1, 3, 1] := by decide +kernel
example : createBins [(1 : ℚ), 2, 2, 3, 5] (some 4) = some [1, 2, 3, 4] := by decide +kernel
example : createBins [(3 : ℚ), 3] none = some [3] := by decide +kernel
example : histogramRelative [(1 : ℚ), 2, 2, 5] [1, 2] = some [1 / 4, 3 / 4] := by decide +kernel
example : histogramLines [(1 : ℚ), 2, 4] 5 [1, 3, 1] =
    [(1, 2, false, 1), (2, 4, false, 3), (4, 5, true, 1)] := by decide +kernel
example : 10 < ((List.range 25).map fun i : ℕ => (i : ℚ)).length ∧
    (percentiles ((List.range 25).map fun i : ℕ => (i : ℚ))).length = 13 := by decide +kernel
example : (0 : ℚ) ≤ 1 ∧ (0 : ℚ) < 10 ∧ (1 / 10 : ℚ) < 1 := by norm_num

end Verif.Tools
