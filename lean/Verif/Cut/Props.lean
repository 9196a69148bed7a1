import Verif.Cut.Spec
import Mathlib.Tactic.Linarith

set_option linter.unusedSectionVars false

/-! # C114: cutting an area out of a grid -/

namespace Verif.Cut

variable {K : Type*} [Field K] [LinearOrder K] [IsStrictOrderedRing K]

theorem searchIn_spec (l : List K) (hs : l.Pairwise (· ≤ ·)) (v : K) (n lo hi : ℕ) (hn : hi - lo ≤ n) (h1 : lo ≤ hi) (h2 : hi ≤ l.length)
    (h3 : ∀ i x, i < lo → l[i]? = some x → x < v) (h4 : ∀ i x, hi ≤ i → l[i]? = some x → v ≤ x) :
    searchIn l v lo hi ≤ l.length ∧ (∀ i x, i < searchIn l v lo hi → l[i]? = some x → x < v) ∧
      ∀ i x, searchIn l v lo hi ≤ i → l[i]? = some x → v ≤ x := by
  have hp : ∀ (i j : ℕ) x y, i ≤ j → l[i]? = some x → l[j]? = some y → x ≤ y := by
    intro i j x y hij hx hy
    obtain ⟨a, ha⟩ := List.getElem?_eq_some_iff.mp hx
    obtain ⟨b, hb⟩ := List.getElem?_eq_some_iff.mp hy
    rcases Nat.lt_or_eq_of_le hij with h | h
    · have := (List.pairwise_iff_getElem.mp hs) i j a b h
      rw [ha, hb] at this
      exact this
    · subst h
      rw [hx] at hy
      cases hy
      exact le_rfl
  induction n generalizing lo hi with
  | zero =>
    have : ¬ lo < hi := by omega
    rw [searchIn, if_neg this]
    exact ⟨by omega, h3, fun i x hi' => h4 i x (by omega)⟩
  | succ n ih =>
    rw [searchIn]
    by_cases h : lo < hi
    · rw [if_pos h]
      simp only
      have hm : lo + (hi - lo) / 2 < l.length := by omega
      have he : l[lo + (hi - lo) / 2]? = some (l.getD (lo + (hi - lo) / 2) 0) := by
        rw [List.getD_eq_getElem?_getD, List.getElem?_eq_getElem hm]; rfl
      by_cases hv : l.getD (lo + (hi - lo) / 2) 0 < v
      · rw [if_pos hv]
        refine ih _ _ (by omega) (by omega) h2 ?_ h4
        intro i x hi' hx
        exact lt_of_le_of_lt (hp i _ x _ (by omega) hx he) hv
      · rw [if_neg hv]
        refine ih _ _ (by omega) (by omega) (by omega) h3 ?_
        intro i x hi' hx
        exact le_trans (not_lt.mp hv) (hp _ i _ x hi' he hx)
    · rw [if_neg h]
      exact ⟨by omega, h3, fun i x hi' => h4 i x (by omega)⟩

theorem search_spec (l : List K) (hs : l.Pairwise (· ≤ ·)) (v : K) :
    search l v ≤ l.length ∧ (∀ i x, i < search l v → l[i]? = some x → x < v) ∧ ∀ i x, search l v ≤ i → l[i]? = some x → v ≤ x :=
  searchIn_spec l hs v l.length 0 l.length (by omega) (by omega) le_rfl (fun i x h => by omega)
    (fun i x h hx => by have := (List.getElem?_eq_some_iff.mp hx).1; omega)

theorem search_mono (l : List K) (hs : l.Pairwise (· ≤ ·)) {v w : K} (h : v ≤ w) : search l v ≤ search l w := by
  by_contra hc
  obtain ⟨a1, a2, -⟩ := search_spec l hs v
  obtain ⟨-, -, b3⟩ := search_spec l hs w
  have hlt : search l w < l.length := by omega
  have e := List.getElem?_eq_getElem hlt
  have h1 := a2 _ _ (by omega) e
  have h2 := b3 _ _ le_rfl e
  exact absurd (lt_of_lt_of_le h1 h) (not_lt.mpr h2)

/-- Cutting out of entries in ascending order. -/
theorem covers_ascending (l : List K) (hst : l.Pairwise (· < ·)) (lo hi : Option K) : Covers l (lower l lo) (upperLon l hi + 1) lo hi := by
  have hs : l.Pairwise (· ≤ ·) := hst.imp fun h => h.le
  refine ⟨?_, ?_, ?_, ?_, ?_⟩
  · intro i v hv ha hb
    have hl := (List.getElem?_eq_some_iff.mp hv).1
    refine ⟨?_, ?_, hl⟩
    · cases lo with
      | none => exact Nat.zero_le _
      | some m =>
        show search l m - 1 ≤ i
        obtain ⟨-, h2, -⟩ := search_spec l hs m
        by_contra hc
        exact absurd (h2 i v (by omega) hv) (not_lt.mpr (ha m rfl))
    · cases hi with
      | none => show i < l.length + 1; omega
      | some m =>
        show i < search l m + 1
        obtain ⟨h1, -, h3⟩ := search_spec l hs m
        by_contra hc
        have hlt : search l m < l.length := by omega
        have hj : search l m < i := by omega
        have hx := h3 _ _ le_rfl (List.getElem?_eq_getElem hlt)
        have := (List.pairwise_iff_getElem.mp hst) _ i hlt hl hj
        rw [List.getElem?_eq_getElem hl] at hv
        cases hv
        exact absurd (lt_of_le_of_lt hx this) (not_lt.mpr (hb m rfl))
  · rintro m rfl ⟨v, hv, hvm⟩ hb
    obtain ⟨h1, h2, h3⟩ := search_spec l hs m
    obtain ⟨j, hj⟩ := List.getElem?_of_mem hv
    have hjl := (List.getElem?_eq_some_iff.mp hj).1
    have hlt : search l m - 1 < l.length := by omega
    refine ⟨search l m - 1, l[search l m - 1], ⟨le_rfl, ?_, hlt⟩, List.getElem?_eq_getElem hlt, ?_⟩
    · cases hi with
      | none => show search l m - 1 < l.length + 1; omega
      | some M =>
        have := search_mono l hs (hb M rfl)
        show search l m - 1 < search l M + 1
        omega
    · by_cases h0 : search l m = 0
      · have : l[search l m - 1] ≤ v := by
          simp only [h0]
          rcases Nat.eq_zero_or_pos j with hz | hz
          · subst hz
            rw [List.getElem?_eq_getElem (by omega)] at hj
            cases hj
            exact le_rfl
          · have := (List.pairwise_iff_getElem.mp hs) 0 j (by omega) hjl hz
            rw [List.getElem?_eq_getElem hjl] at hj
            cases hj
            exact this
        exact this.trans hvm
      · exact (h2 _ _ (by omega) (List.getElem?_eq_getElem hlt)).le
  · rintro m rfl ⟨v, hv, hvm⟩ ha
    obtain ⟨h1, h2, h3⟩ := search_spec l hs m
    obtain ⟨j, hj⟩ := List.getElem?_of_mem hv
    have hjl := (List.getElem?_eq_some_iff.mp hj).1
    have hlt : search l m < l.length := by
      by_contra hc
      exact absurd (h2 j v (by omega) hj) (not_lt.mpr hvm)
    refine ⟨search l m, l[search l m], ⟨?_, ?_, hlt⟩, List.getElem?_eq_getElem hlt, h3 _ _ le_rfl (List.getElem?_eq_getElem hlt)⟩
    · cases lo with
      | none => exact Nat.zero_le _
      | some w =>
        have := search_mono l hs (ha w rfl)
        show search l w - 1 ≤ search l m
        omega
    · show search l m < search l m + 1
      omega
  · rintro m rfl i j v w ⟨hi1, -, -⟩ ⟨hj1, -, -⟩ hv hw hvm hwm
    obtain ⟨-, -, h3⟩ := search_spec l hs m
    have hi1 : search l m - 1 ≤ i := hi1
    have hj1 : search l m - 1 ≤ j := hj1
    have a : ¬ search l m ≤ i := fun h => absurd hvm (not_lt.mpr (h3 i v h hv))
    have b : ¬ search l m ≤ j := fun h => absurd hwm (not_lt.mpr (h3 j w h hw))
    omega
  · rintro m rfl i j v w ⟨-, hi1, -⟩ ⟨-, hj1, -⟩ hv hw hvm hwm
    obtain ⟨-, h2, -⟩ := search_spec l hs m
    have hi1 : i < search l m + 1 := hi1
    have hj1 : j < search l m + 1 := hj1
    have a : ¬ i < search l m := fun h => absurd (h2 i v h hv) (not_lt.mpr hvm)
    have b : ¬ j < search l m := fun h => absurd (h2 j w h hw) (not_lt.mpr hwm)
    omega

theorem covers_congr {l : List K} {a b b' : ℕ} {lo hi : Option K} (h : Covers l a b lo hi) (e : ∀ i, Kept l a b' i ↔ Kept l a b i) :
    Covers l a b' lo hi := by
  refine ⟨?_, ?_, ?_, ?_, ?_⟩
  · intro i v hv h1 h2; exact (e i).mpr (h.all i v hv h1 h2)
  · intro m hm h1 h2
    obtain ⟨i, v, h3, h4⟩ := h.low m hm h1 h2
    exact ⟨i, v, (e i).mpr h3, h4⟩
  · intro m hm h1 h2
    obtain ⟨i, v, h3, h4⟩ := h.high m hm h1 h2
    exact ⟨i, v, (e i).mpr h3, h4⟩
  · intro m hm i j v w hi' hj'; exact h.oneLow m hm i j v w ((e i).mp hi') ((e j).mp hj')
  · intro m hm i j v w hi' hj'; exact h.oneHigh m hm i j v w ((e i).mp hi') ((e j).mp hj')

theorem covers_lat (l : List K) (hst : l.Pairwise (· < ·)) (lo hi : Option K) : Covers l (lower l lo) (upperLat l hi + 1) lo hi := by
  refine covers_congr (covers_ascending l hst lo hi) fun i => ?_
  unfold Kept
  cases hi with
  | none =>
    show _ ∧ i < l.length - 1 + 1 ∧ _ ↔ _ ∧ i < l.length + 1 ∧ _
    omega
  | some m =>
    show _ ∧ i < min (search l m) (l.length - 1) + 1 ∧ _ ↔ _ ∧ i < search l m + 1 ∧ _
    omega

theorem covers_reverse {l : List K} {a b : ℕ} {lo hi : Option K} (h : Covers l.reverse a (b + 1) lo hi) (hb : b ≤ l.length - 1)
    (ha : a ≤ l.length - 1) :
    Covers l (l.length - 1 - b) (l.length - 1 - a + 1) lo hi := by
  have get : ∀ i, i < l.length → l.reverse[l.length - 1 - i]? = l[i]? := by
    intro i hi'
    rw [List.getElem?_reverse (by omega)]
    congr 1
    omega
  have get' : ∀ i, i < l.length → l.reverse[i]? = l[l.length - 1 - i]? := by
    intro i hi'
    rw [List.getElem?_reverse hi']
  have kept : ∀ i, Kept l (l.length - 1 - b) (l.length - 1 - a + 1) i → Kept l.reverse a (b + 1) (l.length - 1 - i) := by
    rintro i ⟨h1, h2, h3⟩
    exact ⟨by omega, by omega, by rw [List.length_reverse]; omega⟩
  have kept' : ∀ i, Kept l.reverse a (b + 1) i → Kept l (l.length - 1 - b) (l.length - 1 - a + 1) (l.length - 1 - i) := by
    rintro i ⟨h1, h2, h3⟩
    rw [List.length_reverse] at h3
    exact ⟨by omega, by omega, by omega⟩
  refine ⟨?_, ?_, ?_, ?_, ?_⟩
  · intro i v hv h1 h2
    have hl := (List.getElem?_eq_some_iff.mp hv).1
    have := kept' _ (h.all (l.length - 1 - i) v (by rw [get i hl]; exact hv) h1 h2)
    rwa [show l.length - 1 - (l.length - 1 - i) = i by omega] at this
  · intro m hm ⟨v, hv, hvm⟩ h2
    obtain ⟨i, v, h3, h4, h5⟩ := h.low m hm ⟨v, List.mem_reverse.mpr hv, hvm⟩ h2
    exact ⟨_, v, kept' i h3, by rw [← get' i (by simpa using h3.2.2)]; exact h4, h5⟩
  · intro m hm ⟨v, hv, hvm⟩ h2
    obtain ⟨i, v, h3, h4, h5⟩ := h.high m hm ⟨v, List.mem_reverse.mpr hv, hvm⟩ h2
    exact ⟨_, v, kept' i h3, by rw [← get' i (by simpa using h3.2.2)]; exact h4, h5⟩
  · intro m hm i j v w hi' hj' hv hw h1 h2
    have := h.oneLow m hm _ _ v w (kept i hi') (kept j hj') (by rw [get i hi'.2.2]; exact hv) (by rw [get j hj'.2.2]; exact hw) h1 h2
    have := hi'.2.2
    have := hj'.2.2
    omega
  · intro m hm i j v w hi' hj' hv hw h1 h2
    have := h.oneHigh m hm _ _ v w (kept i hi') (kept j hj') (by rw [get i hi'.2.2]; exact hv) (by rw [get j hj'.2.2]; exact hw) h1 h2
    have := hi'.2.2
    have := hj'.2.2
    omega

theorem ascending_sorted (l : List K) (h : l.Pairwise (· < ·)) : ascending l = true := by
  unfold ascending
  rw [List.Pairwise.insertionSort_eq (h.imp fun h => h.le), List.all_eq_true]
  intro p hp
  have hpq : p.1 = p.2 := by
    obtain ⟨k, hk⟩ := List.getElem?_of_mem hp
    have hk' : (l.zip l)[k]? = some (p.1, p.2) := by rw [hk]
    rw [List.getElem?_zip_eq_some] at hk'
    have := hk'.1.symm.trans hk'.2
    exact Option.some.inj this
  rw [hpq, sub_self, abs_zero, decide_eq_true_eq]
  positivity

theorem not_ascending (l : List K) (h : l.Pairwise (· > ·)) (x y : K) (hx : l.head? = some x) (hy : l.getLast? = some y)
    (hxy : 1 / 10 ^ 8 + 1 / 10 ^ 5 * |x| < x - y) : ascending l = false := by
  have hr : l.reverse.Pairwise (· ≤ ·) := by
    rw [List.pairwise_reverse]
    exact h.imp fun h => h.le
  have hs : l.insertionSort (· ≤ ·) = l.reverse := by
    refine List.Perm.eq_of_pairwise' (r := (· ≤ ·)) (List.pairwise_insertionSort _ l) hr ?_
    exact (List.perm_insertionSort _ l).trans (List.reverse_perm l).symm
  unfold ascending
  rw [hs, List.all_eq_false]
  refine ⟨(y, x), ?_, ?_⟩
  · refine List.mem_of_getElem? (i := 0) ?_
    rw [List.getElem?_zip_eq_some]
    rw [← List.head?_eq_getElem?, List.head?_reverse, ← List.head?_eq_getElem?]
    exact ⟨hy, hx⟩
  · simp only [decide_eq_true_eq, not_le]
    refine lt_of_lt_of_le hxy ?_
    rw [abs_sub_comm]
    exact le_abs_self _

/-- **C114.** Latitudes and longitudes in ascending order: the slices cover the area asked for, and go beyond it by at most one line at each side. -/
theorem C114_ascending (lats lons : List K) (h1 : lats.Pairwise (· < ·)) (h2 : lons.Pairwise (· < ·)) (minlat maxlat minlon maxlon : Option K) :
    ∃ a b c d, indices lats lons minlat maxlat minlon maxlon = some (a, b, c, d) ∧ Covers lats a b minlat maxlat ∧ Covers lons c d minlon maxlon := by
  refine ⟨lower lats minlat, upperLat lats maxlat + 1, lower lons minlon, upperLon lons maxlon + 1, ?_, covers_lat lats h1 _ _,
    covers_ascending lons h2 _ _⟩
  unfold indices
  rw [ascending_sorted lats h1, ascending_sorted lons h2]
  simp

/-- **C114.** The same if latitudes descend, as long as they do so by more than a hundred-thousandth of the first one. -/
theorem C114_descending (lats lons : List K) (h1 : lats.Pairwise (· > ·)) (h2 : lons.Pairwise (· < ·)) (minlat maxlat minlon maxlon : Option K)
    (x y : K) (hx : lats.head? = some x) (hy : lats.getLast? = some y) (hxy : 1 / 10 ^ 8 + 1 / 10 ^ 5 * |x| < x - y) :
    ∃ a b c d, indices lats lons minlat maxlat minlon maxlon = some (a, b, c, d) ∧ Covers lats a b minlat maxlat ∧ Covers lons c d minlon maxlon := by
  have hr : lats.reverse.Pairwise (· < ·) := by rw [List.pairwise_reverse]; exact h1
  refine ⟨lats.length - 1 - upperLat lats.reverse maxlat, lats.length - 1 - lower lats.reverse minlat + 1, lower lons minlon, upperLon lons maxlon + 1,
    ?_, covers_reverse (covers_lat lats.reverse hr _ _) ?_ ?_, covers_ascending lons h2 _ _⟩
  · unfold indices
    rw [ascending_sorted lons h2, not_ascending lats h1 x y hx hy hxy]
    simp [ascending_sorted _ hr]
  · cases maxlat with
    | none => simp [upperLat]
    | some m => simp [upperLat]
  · cases minlat with
    | none => simp [lower]
    | some m =>
      have := (search_spec lats.reverse (hr.imp fun h => h.le) m).1
      rw [List.length_reverse] at this
      show search lats.reverse m - 1 ≤ _
      omega

/-- **C114.** The slices are never empty if the bounds are in order. -/
theorem C114_some (lats lons : List K) (h1 : lats.Pairwise (· < ·)) (h2 : lons.Pairwise (· < ·)) (hne : lats ≠ []) (hne' : lons ≠ [])
    (minlat maxlat minlon maxlon : Option K) (hlat : ∀ a b, minlat = some a → maxlat = some b → a ≤ b)
    (hlon : ∀ a b, minlon = some a → maxlon = some b → a ≤ b) :
    ∃ a b c d, indices lats lons minlat maxlat minlon maxlon = some (a, b, c, d) ∧ (∃ i, Kept lats a b i) ∧ ∃ i, Kept lons c d i := by
  have low : ∀ l : List K, l.Pairwise (· < ·) → l ≠ [] → ∀ lo hi : Option K, (∀ a b, lo = some a → hi = some b → a ≤ b) →
      Kept l (lower l lo) (upperLon l hi + 1) (lower l lo) ∧ Kept l (lower l lo) (upperLat l hi + 1) (lower l lo) := by
    intro l hl hn lo hi hab
    have hpos := List.length_pos_iff.mpr hn
    have hs : l.Pairwise (· ≤ ·) := hl.imp fun h => h.le
    have h3 : lower l lo ≤ l.length - 1 := by
      cases lo with
      | none => exact Nat.zero_le _
      | some m =>
        have := (search_spec l hs m).1
        show search l m - 1 ≤ _
        omega
    have h4 : lower l lo ≤ upperLon l hi := by
      cases lo with
      | none => exact Nat.zero_le _
      | some m =>
        cases hi with
        | none => exact h3.trans (by show _ ≤ l.length; omega)
        | some M =>
          have := search_mono l hs (hab m M rfl rfl)
          show search l m - 1 ≤ search l M
          omega
    have h5 : lower l lo ≤ upperLat l hi := by
      cases hi with
      | none => exact h3
      | some M => exact le_min h4 h3
    exact ⟨⟨le_rfl, by omega, by omega⟩, ⟨le_rfl, by omega, by omega⟩⟩
  refine ⟨lower lats minlat, upperLat lats maxlat + 1, lower lons minlon, upperLon lons maxlon + 1, ?_, ⟨_, (low lats h1 hne _ _ hlat).2⟩,
    ⟨_, (low lons h2 hne' _ _ hlon).1⟩⟩
  unfold indices
  rw [ascending_sorted lats h1, ascending_sorted lons h2]
  simp

end Verif.Cut
