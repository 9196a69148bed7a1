import Verif.Sparse.Props
import Mathlib.Data.List.GetD

/-! # C22: conversion to compressed rows -/

namespace Verif.Sparse

set_option linter.unusedSectionVars false

variable {K : Type*} [Field K] [DecidableEq K]

/-! ## Row pointers -/

/-- Number of keys in rows before `i`. -/
def before (ks : List Key) (i : ℕ) : ℕ := ks.countP (fun k => decide (k.1 < i))

/-- Rows do not decrease. -/
abbrev RowSorted (ks : List Key) : Prop := ks.Pairwise (fun a b => a.1 ≤ b.1)

theorem before_snoc_le {p : List Key} {k : Key} {i : ℕ} (h : i ≤ k.1) : before (p ++ [k]) i = before p i := by
  unfold before
  rw [List.countP_append]
  have : ¬ k.1 < i := by omega
  simp [this]

theorem before_all {p : List Key} {i : ℕ} (h : ∀ k ∈ p, k.1 < i) : before p i = p.length := by
  unfold before
  rw [List.countP_eq_length]
  intro k hk
  simpa using h k hk

theorem conv_state (init : List ℕ) (p : List Key) (hs : RowSorted p) (hb : ∀ k ∈ p, k.1 < init.length) :
    let s := p.foldl convStep ⟨init, -1, 0⟩
    s.k = p.length ∧ s.rowPtr.length = init.length ∧
      (∀ k ∈ p, (k.1 : ℤ) ≤ s.current) ∧ (s.current = -1 ∨ ∃ k ∈ p, (k.1 : ℤ) = s.current) ∧
      ∀ i, s.rowPtr.getD i 0 = if ∃ k ∈ p, k.1 = i then before p i else init.getD i 0 := by
  induction p using List.reverseRecOn with
  | nil => simp
  | append_singleton p key ih =>
    have hsp : RowSorted p := (List.pairwise_append.mp hs).1
    have hle : ∀ k ∈ p, k.1 ≤ key.1 := fun k hk => (List.pairwise_append.mp hs).2.2 k hk key (by simp)
    obtain ⟨h1, h2, h3, h4, h5⟩ := ih hsp (fun k hk => hb k (by simp [hk]))
    simp only [List.foldl_append, List.foldl_cons, List.foldl_nil]
    generalize p.foldl convStep ⟨init, -1, 0⟩ = s at *
    have hkey : key.1 < init.length := hb key (by simp)
    unfold convStep
    by_cases hc : (key.1 : ℤ) ≠ s.current
    · rw [if_pos hc]
      have hnew : ∀ k ∈ p, k.1 < key.1 := by
        intro k hk
        rcases h4 with h4 | ⟨l, hl, hl2⟩
        · have := h3 k hk; omega
        · have h6 := h3 k hk
          have h7 := hle l hl
          have h8 := hle k hk
          omega
      refine ⟨by simp [h1], by simp [h2], ?_, Or.inr ⟨key, by simp, rfl⟩, ?_⟩
      · intro k hk
        rw [List.mem_append] at hk
        rcases hk with hk | hk
        · have := hle k hk; simp only; omega
        · simp at hk; rw [hk]
      · intro i
        simp only
        by_cases hi : i = key.1
        · subst hi
          rw [if_pos ⟨key, by simp, rfl⟩, before_snoc_le (le_refl _), before_all hnew, List.getD_eq_getElem?_getD,
            List.getElem?_set_self (by rw [h2]; exact hkey), h1]
          rfl
        · have e : (s.rowPtr.set key.1 s.k).getD i 0 = s.rowPtr.getD i 0 := by
            rw [List.getD_eq_getElem?_getD, List.getElem?_set_ne (fun h => hi h.symm), ← List.getD_eq_getElem?_getD]
          rw [e, h5 i]
          by_cases hm : ∃ k ∈ p, k.1 = i
          · obtain ⟨k, hk, rfl⟩ := hm
            rw [if_pos ⟨k, hk, rfl⟩, if_pos ⟨k, by simp [hk], rfl⟩, before_snoc_le (hle k hk)]
          · rw [if_neg hm, if_neg]
            rintro ⟨k, hk, hki⟩
            rw [List.mem_append] at hk
            rcases hk with hk | hk
            · exact hm ⟨k, hk, hki⟩
            · simp at hk; exact hi (hk ▸ hki.symm)
    · rw [if_neg hc]
      push Not at hc
      have hold : ∃ k ∈ p, k.1 = key.1 := by
        rcases h4 with h4 | ⟨l, hl, hl2⟩
        · omega
        · exact ⟨l, hl, by omega⟩
      refine ⟨by simp [h1], h2, ?_, Or.inr ⟨key, by simp, hc⟩, ?_⟩
      · intro k hk
        rw [List.mem_append] at hk
        rcases hk with hk | hk
        · exact h3 k hk
        · simp at hk; rw [hk]; exact hc.le
      · intro i
        rw [h5 i]
        have hiff : (∃ k ∈ p ++ [key], k.1 = i) ↔ ∃ k ∈ p, k.1 = i := by
          constructor
          · rintro ⟨k, hk, hki⟩
            rw [List.mem_append] at hk
            rcases hk with hk | hk
            · exact ⟨k, hk, hki⟩
            · simp at hk; subst hk; obtain ⟨l, hl, hl2⟩ := hold; exact ⟨l, hl, hl2.trans hki⟩
          · rintro ⟨k, hk, hki⟩; exact ⟨k, by simp [hk], hki⟩
        simp only [hiff]
        split_ifs with hm
        · obtain ⟨k, hk, rfl⟩ := hm
          rw [before_snoc_le (hle k hk)]
        · rfl

theorem fold_tail (v : ℕ) (c : ℤ) (n : ℕ) : ∀ p : List ℕ, n ≤ p.length →
    ((List.range n).foldl (fun p (r : ℕ) => if c + 1 ≤ (r : ℤ) then p.set r v else p) p).length = p.length ∧
      ∀ i, ((List.range n).foldl (fun p (r : ℕ) => if c + 1 ≤ (r : ℤ) then p.set r v else p) p).getD i 0 =
        if c + 1 ≤ (i : ℤ) ∧ i < n then v else p.getD i 0 := by
  induction n with
  | zero => intro p _; simp
  | succ n ih =>
    intro p hp
    obtain ⟨h1, h2⟩ := ih p (by omega)
    rw [List.range_succ, List.foldl_append, List.foldl_cons, List.foldl_nil]
    generalize (List.range n).foldl (fun p (r : ℕ) => if c + 1 ≤ (r : ℤ) then p.set r v else p) p = q at *
    by_cases hc : c + 1 ≤ (n : ℤ)
    · rw [if_pos hc]
      refine ⟨by simp [h1], fun i => ?_⟩
      by_cases hi : i = n
      · subst hi
        rw [if_pos ⟨hc, by omega⟩, List.getD_eq_getElem?_getD, List.getElem?_set_self (by omega)]
        rfl
      · rw [List.getD_eq_getElem?_getD, List.getElem?_set_ne (fun h => hi h.symm), ← List.getD_eq_getElem?_getD, h2 i]
        have : (c + 1 ≤ (i : ℤ) ∧ i < n) ↔ (c + 1 ≤ (i : ℤ) ∧ i < n + 1) := by
          constructor
          · rintro ⟨a, b⟩; exact ⟨a, by omega⟩
          · rintro ⟨a, b⟩; exact ⟨a, by omega⟩
        simp only [this]
    · rw [if_neg hc]
      refine ⟨h1, fun i => ?_⟩
      rw [h2 i]
      have : (c + 1 ≤ (i : ℤ) ∧ i < n) ↔ (c + 1 ≤ (i : ℤ) ∧ i < n + 1) := by
        constructor
        · rintro ⟨a, b⟩; exact ⟨a, by omega⟩
        · rintro ⟨a, b⟩
          refine ⟨a, ?_⟩
          by_contra hn
          have : i = n := by omega
          subst this; exact hc a
      simp only [this]

/-- The row pointers produced: right for nonempty rows and behind the last of them; elsewhere the old content of the array. -/
theorem rowPtrs_get (init : List ℕ) (rows : ℕ) (ks : List Key) (hs : RowSorted ks) (hl : init.length = rows + 1)
    (hb : ∀ k ∈ ks, k.1 < rows) :
    (rowPtrs init rows ks).length = rows + 1 ∧
      ∀ i ≤ rows, (rowPtrs init rows ks).getD i 0 =
        if (∃ k ∈ ks, k.1 = i) ∨ ∀ k ∈ ks, k.1 < i then before ks i else init.getD i 0 := by
  obtain ⟨-, h2, h3, h4, h5⟩ := conv_state init ks hs (fun k hk => by have := hb k hk; omega)
  unfold rowPtrs
  simp only
  generalize ks.foldl convStep ⟨init, -1, 0⟩ = s at *
  obtain ⟨k1, k2⟩ := fold_tail ks.length s.current (rows + 1) s.rowPtr (by omega)
  refine ⟨by rw [k1, h2, hl], fun i hi => ?_⟩
  rw [k2 i]
  by_cases hc : s.current + 1 ≤ (i : ℤ)
  · have : ∀ k ∈ ks, k.1 < i := fun k hk => by have := h3 k hk; omega
    rw [if_pos ⟨hc, by omega⟩, if_pos (Or.inr this), before_all this]
  · rw [if_neg (fun h => hc h.1), h5 i]
    have : ¬ ∀ k ∈ ks, k.1 < i := by
      intro h
      rcases h4 with h4 | ⟨k, hk, hk2⟩
      · omega
      · have := h k hk; omega
    simp only [this, or_false]

/-! ## Rows as slices -/

theorem sorted_split (es : List (Key × K)) (hs : es.Pairwise (fun a b => a.1.1 ≤ b.1.1)) (i : ℕ) :
    es = es.filter (fun e => decide (e.1.1 < i)) ++ es.filter (fun e => !decide (e.1.1 < i)) := by
  induction es with
  | nil => rfl
  | cons a es ih =>
    rw [List.pairwise_cons] at hs
    by_cases h : a.1.1 < i
    · simp only [List.filter_cons, h, decide_true, if_true, Bool.not_true, Bool.false_eq_true, if_false, List.cons_append]
      rw [← ih hs.2]
    · have hn : es.filter (fun e => decide (e.1.1 < i)) = [] := by
        rw [List.filter_eq_nil_iff]
        intro e he
        have := hs.1 e he
        simp; omega
      have hall : es.filter (fun e => !decide (e.1.1 < i)) = es := by
        rw [List.filter_eq_self]
        intro e he
        have := hs.1 e he
        simp; omega
      simp [h, hn, hall]

theorem row_slice (es : List (Key × K)) (hs : es.Pairwise (fun a b => a.1.1 ≤ b.1.1)) (i : ℕ) :
    (es.drop (before (keys es) i)).take (before (keys es) (i + 1) - before (keys es) i) =
      es.filter (fun e => decide (e.1.1 = i)) := by
  have hb : ∀ i, before (keys es) i = (es.filter (fun e => decide (e.1.1 < i))).length := by
    intro i
    unfold before keys
    rw [List.countP_map, List.countP_eq_length_filter]
    rfl
  have hd : es.drop (before (keys es) i) = es.filter (fun e => !decide (e.1.1 < i)) := by
    rw [hb i]
    conv_lhs => arg 2; rw [sorted_split es hs i]
    rw [List.drop_left']
    rfl
  rw [hd]
  have hs2 : (es.filter (fun e => !decide (e.1.1 < i))).Pairwise (fun a b => a.1.1 ≤ b.1.1) := hs.filter _
  have h2 := sorted_split _ hs2 (i + 1)
  rw [List.filter_filter, List.filter_filter] at h2
  have e1 : es.filter (fun e => decide (e.1.1 < i + 1) && !decide (e.1.1 < i)) = es.filter (fun e => decide (e.1.1 = i)) := by
    congr 1
    funext e
    rw [Bool.eq_iff_iff]
    simp; omega
  rw [e1] at h2
  have hlen : before (keys es) (i + 1) - before (keys es) i = (es.filter (fun e => decide (e.1.1 = i))).length := by
    rw [hb, hb]
    have : (es.filter (fun e => decide (e.1.1 < i + 1))).length =
        (es.filter (fun e => decide (e.1.1 < i))).length + (es.filter (fun e => decide (e.1.1 = i))).length := by
      rw [← List.countP_eq_length_filter, ← List.countP_eq_length_filter, ← List.countP_eq_length_filter]
      clear * -
      induction es with
      | nil => rfl
      | cons a es ih =>
        simp only [List.countP_cons, ih]
        by_cases h1 : a.1.1 < i
        · have h2 : a.1.1 < i + 1 := by omega
          have h3 : ¬ a.1.1 = i := by omega
          simp [h1, h2, h3]; omega
        · by_cases h3 : a.1.1 = i
          · simp [h3]; omega
          · have h2 : ¬ a.1.1 < i + 1 := by omega
            simp [h1, h2, h3]
    omega
  rw [h2, hlen, List.take_left']
  rfl

theorem map_range' {α β : Type*} (es : List α) (g : ℕ → β) (f : α → β) (hg : ∀ k (h : k < es.length), g k = f es[k]) (a n : ℕ) (h : a + n ≤ es.length) :
    (List.range' a n).map g = ((es.drop a).take n).map f := by
  apply List.ext_getElem
  · simp; omega
  · intro k h1 h2
    simp only [List.length_map, List.length_range'] at h1
    rw [List.getElem_map, List.getElem_range', List.getElem_map, List.getElem_take, List.getElem_drop]
    rw [hg _ (by omega)]
    congr 2; omega

theorem before_le (ks : List Key) (i : ℕ) : before ks i ≤ ks.length := List.countP_le_length

theorem before_mono (ks : List Key) (i : ℕ) : before ks i ≤ before ks (i + 1) := by
  unfold before
  apply List.countP_mono_left
  intro k _ h
  simp at h ⊢; omega

theorem sorted_perm (l : List (Key × K)) : (sorted l).Perm l := List.perm_insertionSort _ _

theorem sorted_rows (l : List (Key × K)) : (sorted l).Pairwise (fun a b => a.1.1 ≤ b.1.1) := by
  have h : (sorted l).Pairwise (fun a b => keyLe a.1 b.1 = true) := by
    unfold sorted
    have : Std.Total (fun (a b : Key × K) => keyLe a.1 b.1 = true) := ⟨by
      intro a b; simp only [keyLe, decide_eq_true_eq]; omega⟩
    have : IsTrans (Key × K) (fun (a b : Key × K) => keyLe a.1 b.1 = true) := ⟨by
      intro a b c; simp only [keyLe, decide_eq_true_eq]; omega⟩
    exact List.pairwise_insertionSort _ _
  refine h.imp ?_
  intro a b hab
  simp only [keyLe, decide_eq_true_eq] at hab
  omega

/-- A CSR structure holding the entries `es` with row pointers right. -/
theorem csr_row (es : List (Key × K)) (hs : es.Pairwise (fun a b => a.1.1 ≤ b.1.1)) (rp : List ℕ) (i : ℕ)
    (h0 : rp.getD i 0 = before (keys es) i) (h1 : rp.getD (i + 1) 0 = before (keys es) (i + 1)) {β : Type*} (g : ℕ → β) (f : Key × K → β)
    (hg : ∀ k (h : k < es.length), g k = f es[k]) :
    ((Csr.slots ⟨es.map Prod.snd, es.map (fun e => e.1.2), rp⟩ i).map g) = (es.filter (fun e => decide (e.1.1 = i))).map f := by
  unfold Csr.slots
  simp only [h0, h1]
  rw [map_range' es g f hg, row_slice es hs i]
  have := before_le (keys es) (i + 1)
  have := before_mono (keys es) i
  simp only [keys, List.length_map] at *
  omega

theorem foldl_add_sum {β : Type*} (h : β → K) (l : List β) (s : K) : l.foldl (fun y k => y + h k) s = s + (l.map h).sum := by
  induction l generalizing s with
  | nil => simp
  | cons a l ih => rw [List.foldl_cons, ih, List.map_cons, List.sum_cons]; ring

theorem sum_filter (es : List (Key × K)) (i : ℕ) (h : Key × K → K) :
    ((es.filter (fun e => decide (e.1.1 = i))).map h).sum = (es.map (fun e => if e.1.1 = i then h e else 0)).sum := by
  induction es with
  | nil => rfl
  | cons a es ih =>
    by_cases ha : a.1.1 = i
    · simp only [List.filter_cons, ha, decide_true, if_true, List.map_cons, List.sum_cons, ih]
    · simp only [List.filter_cons, ha, decide_false, Bool.false_eq_true, if_false, List.map_cons, List.sum_cons, ih, zero_add]

theorem before_perm {a b : List Key} (h : a.Perm b) (i : ℕ) : before a i = before b i := h.countP_eq _

/-- A row written by assignments. -/
theorem fold_row (f : List (ℕ × K)) (N : ℕ) : ∀ row : List K, row.length = N → (f.map Prod.fst).Nodup →
    (f.foldl (fun row e => row.set e.1 e.2) row).length = N ∧
    ∀ j < N, (f.foldl (fun row e => row.set e.1 e.2) row).getD j 0 =
      if j ∈ f.map Prod.fst then (f.lookup j).getD 0 else row.getD j 0 := by
  induction f with
  | nil => intro row hr _; simp [hr]
  | cons e f ih =>
    intro row hr hn
    simp only [List.map_cons, List.nodup_cons] at hn
    obtain ⟨h1, h2⟩ := ih (row.set e.1 e.2) (by simp [hr]) hn.2
    rw [List.foldl_cons]
    refine ⟨h1, fun j hj => ?_⟩
    rw [h2 j hj, List.lookup_cons]
    by_cases hje : j = e.1
    · subst hje
      rw [if_neg hn.1, if_pos (by simp), List.getD_eq_getElem?_getD, List.getElem?_set_self (by omega)]
      simp
    · have hb : (j == e.1) = false := by simpa using hje
      rw [hb, List.getD_eq_getElem?_getD (l := row.set e.1 e.2), List.getElem?_set_ne (fun h => hje h.symm), ← List.getD_eq_getElem?_getD]
      simp only [List.map_cons, List.mem_cons, hje, false_or]

theorem lookup_row (es : List (Key × K)) (i j : ℕ) :
    (((es.filter (fun e => decide (e.1.1 = i))).map (fun e => (e.1.2, e.2))).lookup j) = es.lookup (i, j) := by
  induction es with
  | nil => rfl
  | cons e es ih =>
    rw [List.lookup_cons]
    by_cases hi : e.1.1 = i
    · simp only [List.filter_cons, hi, decide_true, if_true, List.map_cons]
      rw [List.lookup_cons, ih]
      by_cases hj : j = e.1.2
      · have h1 : (j == e.1.2) = true := by simpa using hj
        have h2 : ((i, j) == e.1) = true := by simp [Prod.ext_iff, hi, hj]
        rw [h1, h2]
      · have h1 : (j == e.1.2) = false := by simpa using hj
        have h2 : ((i, j) == e.1) = false := by
          rw [beq_eq_false_iff_ne]; intro h; rw [← h] at hj; exact hj rfl
        rw [h1, h2]
    · have h2 : ((i, j) == e.1) = false := by
        rw [beq_eq_false_iff_ne]; intro h; rw [← h] at hi; exact hi rfl
      rw [h2]
      simp only [List.filter_cons, hi, decide_false, Bool.false_eq_true, if_false, ih]

theorem look_perm {l m : List (Key × K)} (h : l.Perm m) (hn : (keys l).Nodup) (k : Key) : look l k = look m k := by
  have hm : (keys m).Nodup := (h.map Prod.fst).nodup_iff.mp hn
  by_cases hk : k ∈ keys l
  · obtain ⟨e, he, rfl⟩ := List.mem_map.mp hk
    rw [look_mem hn he, look_mem hm (h.mem_iff.mp he)]
  · rw [look_of_not_mem hk, look_of_not_mem (fun h2 => hk ((h.map Prod.fst).mem_iff.mpr h2))]

/-- With right row pointers, everything computed from the compressed rows is right. -/
theorem csr_good (l : List (Key × K)) (hn : (keys l).Nodup) (rows N : ℕ) (hc : ∀ k ∈ keys l, k.2 < N) (rp : List ℕ) (hlen : rp.length = rows + 1)
    (hrp : ∀ i ≤ rows, rp.getD i 0 = before (keys l) i) :
    (∀ x : List K, (Csr.mulVec ⟨(sorted l).map Prod.snd, (sorted l).map (fun e => e.1.2), rp⟩ x) =
      (List.range rows).map (fun i => ∑ j ∈ Finset.range N, look l (i, j) * x.getD j 0)) ∧
    (∀ (B : ℕ → ℕ → K) (c : ℕ), (Csr.mulCol ⟨(sorted l).map Prod.snd, (sorted l).map (fun e => e.1.2), rp⟩ B c) =
      (List.range rows).map (fun i => ∑ j ∈ Finset.range N, look l (i, j) * B j c)) ∧
    Csr.todense ⟨(sorted l).map Prod.snd, (sorted l).map (fun e => e.1.2), rp⟩ N =
      (List.range rows).map (fun i => (List.range N).map (fun j => look l (i, j))) := by
  have hp := sorted_perm l
  have hs := sorted_rows l
  have hb : ∀ i, before (keys (sorted l)) i = before (keys l) i := before_perm (hp.map Prod.fst)
  have key : ∀ i < rows, ∀ {β : Type _} (g : ℕ → β) (f : Key × K → β), (∀ k (h : k < (sorted l).length), g k = f (sorted l)[k]) →
      ((Csr.slots ⟨(sorted l).map Prod.snd, (sorted l).map (fun e => e.1.2), rp⟩ i).map g) = ((sorted l).filter (fun e => decide (e.1.1 = i))).map f := by
    intro i hi β g f hg
    exact csr_row (sorted l) hs rp i (by rw [hrp i (by omega), hb]) (by rw [hrp (i + 1) (by omega), hb]) g f hg
  have hsum : ∀ (i : ℕ) (h : ℕ → K), (((sorted l).filter (fun e => decide (e.1.1 = i))).map (fun e => e.2 * h e.1.2)).sum =
      ∑ j ∈ Finset.range N, look l (i, j) * h j := by
    intro i h
    rw [sum_filter, (hp.map _).sum_eq, sum_row l N h hn hc i]
  have hdata : ∀ k (h : k < (sorted l).length), ((sorted l).map Prod.snd).getD k 0 = (sorted l)[k].2 := by
    intro k h; simp [h]
  have hcol : ∀ k (h : k < (sorted l).length), ((sorted l).map (fun e => e.1.2)).getD k 0 = (sorted l)[k].1.2 := by
    intro k h; simp [h]
  refine ⟨fun x => ?_, fun B c => ?_, ?_⟩
  · unfold Csr.mulVec
    simp only [hlen, Nat.add_sub_cancel]
    apply List.map_congr_left
    intro i hi
    rw [List.mem_range] at hi
    rw [foldl_add_sum, zero_add, key i hi _ (fun e => e.2 * x.getD e.1.2 0) (by intro k h; rw [hdata k h, hcol k h]), hsum i (fun j => x.getD j 0)]
  · unfold Csr.mulCol
    simp only [hlen, Nat.add_sub_cancel]
    apply List.map_congr_left
    intro i hi
    rw [List.mem_range] at hi
    rw [foldl_add_sum, zero_add, key i hi _ (fun e => e.2 * B e.1.2 c) (by intro k h; rw [hdata k h, hcol k h]), hsum i (fun j => B j c)]
  · unfold Csr.todense
    simp only [hlen, Nat.add_sub_cancel]
    apply List.map_congr_left
    intro i hi
    rw [List.mem_range] at hi
    have h1 := key i hi (fun k => (((sorted l).map (fun e => e.1.2)).getD k 0, ((sorted l).map Prod.snd).getD k 0)) (fun e => (e.1.2, e.2))
      (by intro k h; rw [hdata k h, hcol k h])
    have h2 : ((Csr.slots ⟨(sorted l).map Prod.snd, (sorted l).map (fun e => e.1.2), rp⟩ i).foldl
        (fun row ckey => row.set (((sorted l).map (fun e => e.1.2)).getD ckey 0) (((sorted l).map Prod.snd).getD ckey 0)) (List.replicate N 0)) =
        (((sorted l).filter (fun e => decide (e.1.1 = i))).map (fun e => (e.1.2, e.2))).foldl (fun row e => row.set e.1 e.2) (List.replicate N 0) := by
      rw [← h1, List.foldl_map]
    rw [h2]
    have hns : (keys (sorted l)).Nodup := (hp.map Prod.fst).nodup_iff.mpr hn
    have hnd : ((((sorted l).filter (fun e => decide (e.1.1 = i))).map (fun e => (e.1.2, e.2))).map Prod.fst).Nodup := by
      have h3 : (((sorted l).filter (fun e => decide (e.1.1 = i))).map Prod.fst).Nodup := hns.sublist (List.filter_sublist.map _)
      rw [List.map_map]
      have h4 : ((sorted l).filter (fun e => decide (e.1.1 = i))).map Prod.fst =
          (((sorted l).filter (fun e => decide (e.1.1 = i))).map (Prod.fst ∘ fun e => (e.1.2, e.2))).map (fun j => (i, j)) := by
        rw [List.map_map]
        apply List.map_congr_left
        intro e he
        rw [List.mem_filter] at he
        have := he.2
        simp only [decide_eq_true_eq] at this
        simp [← this]
      rw [h4] at h3
      exact List.Nodup.of_map _ h3
    obtain ⟨k1, k2⟩ := fold_row _ N (List.replicate N 0) (by simp) hnd
    apply List.ext_getElem
    · rw [k1]; simp
    · intro j hj1 hj2
      rw [k1] at hj1
      have h5 := k2 j hj1
      rw [List.getD_eq_getElem _ _ (by rw [k1]; exact hj1)] at h5
      rw [h5, lookup_row, List.getElem_map, List.getElem_range, ← look_perm hp hns]
      split_ifs with h6
      · rfl
      · rw [getD_replicate, look, ← lookup_row]
        have : ((((sorted l).filter (fun e => decide (e.1.1 = i))).map (fun e => (e.1.2, e.2))).lookup j) = none := by
          rw [List.lookup_eq_none_iff]
          intro p hp2
          rw [bne_iff_ne]
          intro h
          exact h6 (by rw [h]; exact List.mem_map_of_mem hp2)
        rw [this]; rfl

/-! ## The properties -/

/-- An empty row between two rows that are not empty. -/
def Gap (D : ℕ → ℕ → K) : Prop := ∃ i, (∀ j, D i j = 0) ∧ (∃ a b, a < i ∧ D a b ≠ 0) ∧ ∃ a b, i < a ∧ D a b ≠ 0

theorem toCsr_ptr {A : Mat K} (hA : WF A) :
    (toCsr A).rowPtr.length = A.M + 1 ∧ ∀ i ≤ A.M, (toCsr A).rowPtr.getD i 0 =
      if (∃ k ∈ keys A.data, k.1 = i) ∨ ∀ k ∈ keys A.data, k.1 < i then before (keys A.data) i else 0 := by
  have hp := (sorted_perm A.data).map Prod.fst
  have hs : RowSorted ((sorted A.data).map Prod.fst) := by
    unfold RowSorted
    rw [List.pairwise_map]; exact sorted_rows A.data
  obtain ⟨h1, h2⟩ := rowPtrs_get (List.replicate (A.M + 1) 0) A.M ((sorted A.data).map Prod.fst) hs (by simp)
    (fun k hk => (hA.inside k (hp.mem_iff.mp hk)).1)
  refine ⟨h1, fun i hi => ?_⟩
  have h3 := h2 i hi
  have e0 : (List.replicate (A.M + 1) 0).getD i 0 = 0 := by
    by_cases h : i < A.M + 1 <;> simp [h]
  rw [e0, before_perm hp] at h3
  simp only [hp.mem_iff] at h3
  exact h3

/-- **C22.** Unless an empty row lies between nonempty ones, products and the dense form computed from compressed rows are those
of the matrix. -/
theorem C22_no_gap (e : Expr K) (h : e.Ok) (hz : e.NoZeroScale) (hg : ¬ Gap e.den) :
    ∃ A, e.eval = some A ∧
      (∀ x : List K, x.length = e.dims.2 → A.mulVec x = some ((toCsr A).mulVec x)) ∧
      (∀ x : List K, (toCsr A).mulVec x =
        (List.range e.dims.1).map (fun i => ∑ j ∈ Finset.range e.dims.2, e.den i j * x.getD j 0)) ∧
      (∀ (B : ℕ → ℕ → K) (c : ℕ), (toCsr A).mulCol B c =
        (List.range e.dims.1).map (fun i => ∑ j ∈ Finset.range e.dims.2, e.den i j * B j c)) ∧
      (toCsr A).todense e.dims.2 = (List.range e.dims.1).map (fun i => (List.range e.dims.2).map (fun j => e.den i j)) := by
  obtain ⟨A, h1, h2, h3, h4, h5, h6⟩ := eval_spec e h
  have hnz := h6 hz
  obtain ⟨p1, p2⟩ := toCsr_ptr h2
  have hkey : ∀ k, k ∈ keys A.data ↔ e.den k.1 k.2 ≠ 0 := by
    intro k
    rw [← h5 k]
    constructor
    · intro hk
      obtain ⟨x, hx, rfl⟩ := List.mem_map.mp hk
      rw [look_mem h2.nodup hx]
      exact hnz x hx
    · intro hk
      by_contra hn
      exact hk (look_of_not_mem hn)
  obtain ⟨c1, c2, c3⟩ := csr_good A.data h2.nodup A.M A.N (fun k hk => (h2.inside k hk).2) (toCsr A).rowPtr p1 (by
    intro i hi
    rw [p2 i hi]
    split_ifs with hc
    · rfl
    · push Not at hc
      obtain ⟨hc1, b, hb, hbi⟩ := hc
      symm
      unfold before
      rw [List.countP_eq_zero]
      intro a ha
      rw [decide_eq_true_eq]
      intro hai
      refine hg ⟨i, fun j => ?_, ⟨a.1, a.2, hai, (hkey a).mp ha⟩, ⟨b.1, b.2, ?_, (hkey b).mp hb⟩⟩
      · by_contra hne
        exact hc1 (i, j) ((hkey (i, j)).mpr hne) rfl
      · have := hc1 b hb; omega)
  have hx : ∀ x : List K, (toCsr A).mulVec x =
        (List.range e.dims.1).map (fun i => ∑ j ∈ Finset.range e.dims.2, e.den i j * x.getD j 0) := by
    intro x
    have := c1 x
    simp only [h5, h3, h4] at this
    exact this
  refine ⟨A, h1, fun x hxl => ?_, hx, fun B c => ?_, ?_⟩
  · obtain ⟨A', a1, a2, -⟩ := C21_products e h
    rw [h1] at a1
    cases a1
    obtain ⟨y, y1, y2, y3⟩ := a2 x hxl
    rw [y1, hx x]
    congr 1
    apply List.ext_getElem
    · simp [y2]
    · intro i i1 i2
      have := y3 i (y2 ▸ i1)
      rw [List.getD_eq_getElem _ _ i1] at this
      rw [this, List.getElem_map, List.getElem_range]
  · have := c2 B c
    simp only [h5, h3, h4] at this
    exact this
  · have := c3
    simp only [h5, h3, h4] at this
    exact this

/-- **C22.** The condition is needed: whenever an empty row lies between nonempty ones, some product is wrong. -/
theorem C22_gap_breaks (e : Expr K) (h : e.Ok) (hz : e.NoZeroScale) (hg : Gap e.den) :
    ∃ A, e.eval = some A ∧ ∃ x : List K, x.length = e.dims.2 ∧ A.mulVec x ≠ some ((toCsr A).mulVec x) := by
  obtain ⟨A, h1, h2, h3, h4, h5, h6⟩ := eval_spec e h
  have hnz := h6 hz
  obtain ⟨p1, p2⟩ := toCsr_ptr h2
  have hkey : ∀ k, k ∈ keys A.data ↔ e.den k.1 k.2 ≠ 0 := by
    intro k
    rw [← h5 k]
    constructor
    · intro hk
      obtain ⟨x, hx, rfl⟩ := List.mem_map.mp hk
      rw [look_mem h2.nodup hx]
      exact hnz x hx
    · intro hk
      by_contra hn
      exact hk (look_of_not_mem hn)
  obtain ⟨i, hi, ⟨a, b, hai, hab⟩, c, d, hic, hcd⟩ := hg
  -- the last nonempty row before `i`
  classical
  let P : ℕ → Prop := fun r => r < i ∧ ∃ j, e.den r j ≠ 0
  have hP : P (Nat.findGreatest P i) := Nat.findGreatest_spec (P := P) (m := a) hai.le ⟨hai, b, hab⟩
  have hlast : ∀ r, Nat.findGreatest P i < r → r ≤ i → ¬ P r := fun r h1 h2 => Nat.findGreatest_is_greatest h1 h2
  generalize Nat.findGreatest P i = r at hP hlast
  obtain ⟨hri, j, hrj⟩ := hP
  have hcM := (h2.inside (c, d) ((hkey (c, d)).mpr hcd)).1
  have hjN := (h2.inside (r, j) ((hkey (r, j)).mpr hrj))
  simp only at hcM hjN
  have hrow : ∀ j, e.den (r + 1) j = 0 := by
    intro j'
    by_cases hri' : r + 1 = i
    · rw [hri']; exact hi j'
    · by_contra hne
      exact hlast (r + 1) (by omega) (by omega) ⟨by omega, j', hne⟩
  have hz1 : (toCsr A).rowPtr.getD (r + 1) 0 = 0 := by
    rw [p2 (r + 1) (by omega), if_neg]
    push Not
    refine ⟨fun k hk hk1 => ?_, (c, d), (hkey (c, d)).mpr hcd, by simp only; omega⟩
    have := (hkey k).mp hk
    rw [hk1] at this
    exact this (hrow _)
  refine ⟨A, h1, (List.range e.dims.2).map (fun t => if t = j then 1 else 0), by simp, ?_⟩
  obtain ⟨A', a1, a2, -⟩ := C21_products e h
  rw [h1] at a1
  cases a1
  obtain ⟨y, y1, y2, y3⟩ := a2 ((List.range e.dims.2).map (fun t => if t = j then 1 else 0)) (by simp)
  rw [y1]
  intro heq
  have heq : y = _ := Option.some.inj heq
  have h7 := y3 r (by rw [← h3]; exact hjN.1)
  rw [heq] at h7
  have h8 : ((toCsr A).mulVec ((List.range e.dims.2).map (fun t => if t = j then 1 else 0))).getD r 0 = 0 := by
    unfold Csr.mulVec
    rw [p1, Nat.add_sub_cancel, List.getD_eq_getElem _ _ (by simp [hjN.1]), List.getElem_map, List.getElem_range]
    unfold Csr.slots
    rw [hz1]
    simp
  rw [h8, Finset.sum_eq_single j] at h7
  · have : ((List.range e.dims.2).map (fun t => if t = j then (1 : K) else 0)).getD j 0 = 1 := by
      have : j < e.dims.2 := h4 ▸ hjN.2
      simp [this]
    rw [this, mul_one] at h7
    exact hrj h7.symm
  · intro t ht htj
    have : ((List.range e.dims.2).map (fun t => if t = j then (1 : K) else 0)).getD t 0 = 0 := by
      rw [Finset.mem_range] at ht
      simp [ht, htj]
    rw [this, mul_zero]
  · intro hn
    exact absurd (Finset.mem_range.mpr (h4 ▸ hjN.2)) hn

/-! ## The hypotheses can be met -/

/-- rows 0 and 2 of three filled -/
def gapExpr : Expr ℚ := .set (.set (.zero 3 2) 0 0 2) 2 1 5

/-- rows 1 and 2 of four filled -/
def goodExpr : Expr ℚ := .set (.set (.set (.zero 4 2) 2 1 5) 1 1 7) 1 0 3

example : gapExpr.Ok ∧ gapExpr.NoZeroScale ∧ Gap gapExpr.den := by
  refine ⟨by simp [gapExpr, Expr.Ok, Expr.dims], by simp [gapExpr, Expr.NoZeroScale], 1, ?_, ⟨0, 0, ?_⟩, 2, 1, ?_⟩ <;>
    simp [gapExpr, Expr.den]

example : goodExpr.Ok ∧ goodExpr.NoZeroScale ∧ ¬ Gap goodExpr.den := by
  refine ⟨by simp [goodExpr, Expr.Ok, Expr.dims], by simp [goodExpr, Expr.NoZeroScale], ?_⟩
  rintro ⟨i, h0, ⟨a, b, ha, hab⟩, c, d, hc, hcd⟩
  have h1 := h0 0
  have h2 := h0 1
  simp only [goodExpr, Expr.den] at h1 h2 hab hcd
  grind

example : goodExpr.eval.map (fun A => (toCsr A).mulVec [1, 10]) = some [0, 73, 50, 0] := by decide +kernel

example : gapExpr.eval.map (fun A => (toCsr A).mulVec [1, 10]) = some [0, 2, 50] := by decide +kernel

end Verif.Sparse
