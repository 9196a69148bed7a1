import Verif.Mux.LemmasRead
import Mathlib.Tactic.Linarith
import Mathlib.Tactic.NormNum

/-! # C110: multiplexed files -/

namespace Verif.Mux

set_option linter.unusedSectionVars false

variable {K : Type} [Field K] [LinearOrder K] [IsStrictOrderedRing K]

/-- **C110.** Whatever is in the buffer, a station taken from a multiplexed block has the values it was written with, zero before and 99
after; nothing outside the buffer is read. -/
theorem C110_demux {s : Src K} {total : ℕ} {v : ℕ → ℕ → K} (hw : Written s total v) (buf : List K) {i : ℕ} (hi : i < total) (nt : ℕ)
    (ig : ℤ) : fill s (load buf s total) i total nt ig = .ok ((List.range nt).map fun k => value s v ig i (k + 1)) :=
  fill_ok hw buf hi nt ig

theorem isdata_iff (x : K) : isdata x = true ↔ Data x := by
  unfold isdata Data
  rw [le_abs]
  simp only [Bool.not_eq_true', Bool.and_eq_false_iff, decide_eq_false_iff_not, not_lt]
  constructor
  · rintro (h | h)
    · left; linarith
    · right; linarith
  · rintro (h | h)
    · left; linarith
    · right; linarith

theorem not_data_99 : isdata (99 : K) = false := by
  unfold isdata
  simp

theorem data_zero : isdata (0 : K) = true := by
  rw [isdata_iff]
  unfold Data
  rw [zero_sub, abs_neg, abs_of_pos (by norm_num)]
  norm_num

/-- Values mixed one after the other. -/
def mixAll (l : List (K × K)) (a : K) : K := l.foldl (fun a x => mix a x.1 x.2) a

theorem mixAll_bad (l : List (K × K)) (a : K) (h : isdata a = false) : mixAll l a = if l = [] then a else 99 := by
  induction l generalizing a with
  | nil => rfl
  | cons x l ih =>
    rw [if_neg (by simp)]
    show mixAll l (mix a x.1 x.2) = 99
    have e : mix a x.1 x.2 = 99 := by unfold mix; simp [h]
    rw [e, ih 99 not_data_99]
    by_cases hl : l = []
    · rw [if_pos hl]
    · rw [if_neg hl]

theorem mixAll_missing (l : List (K × K)) (a : K) (h : ∃ x ∈ l, isdata x.1 = false) : mixAll l a = 99 := by
  induction l generalizing a with
  | nil => simp at h
  | cons x l ih =>
    show mixAll l (mix a x.1 x.2) = 99
    obtain ⟨y, hy, hd⟩ := h
    rcases List.mem_cons.1 hy with rfl | hy
    · have e : mix a y.1 y.2 = 99 := by unfold mix; simp [hd]
      rw [e, mixAll_bad l 99 not_data_99]
      by_cases hl : l = []
      · rw [if_pos hl]
      · rw [if_neg hl]
    · exact ih _ ⟨y, hy, hd⟩

theorem mixAll_sum (l : List (K × K)) (a : K) (ha : l ≠ [] → isdata a = true) (hd : ∀ x ∈ l, isdata x.1 = true)
    (hp : ∀ m, 0 < m → m < l.length → isdata (a + weighted (l.take m)) = true) : mixAll l a = a + weighted l := by
  induction l generalizing a with
  | nil => simp [mixAll, weighted]
  | cons x l ih =>
    show mixAll l (mix a x.1 x.2) = _
    have e : mix a x.1 x.2 = a + x.1 * x.2 := by
      unfold mix
      simp [ha (by simp), hd x List.mem_cons_self]
    have hw : ∀ l' : List (K × K), weighted (x :: l') = x.1 * x.2 + weighted l' := fun l' => by simp [weighted]
    rw [e, ih]
    · rw [hw, add_assoc]
    · intro hl
      have := hp 1 (by omega) (by
        have := List.length_pos_iff.2 hl
        simp; omega)
      simpa [weighted] using this
    · exact fun y hy => hd y (List.mem_cons_of_mem _ hy)
    · intro m hm hlt
      have := hp (m + 1) (by omega) (by simp; omega)
      rw [List.take_succ_cons, hw, ← add_assoc] at this
      exact this

theorem firsts_least (a : ℤ) (l : List (Src K × K)) (f : Src K × K → ℤ) :
    IsLeast {x | x = a ∨ ∃ s ∈ l, x = f s} (l.foldl (fun a x => min a (f x)) a) := by
  induction l generalizing a with
  | nil => exact ⟨Or.inl rfl, fun x hx => by rcases hx with rfl | ⟨s, hs, _⟩ <;> simp_all⟩
  | cons y l ih =>
    rw [List.foldl_cons]
    obtain ⟨h1, h2⟩ := ih (min a (f y))
    constructor
    · rcases h1 with h1 | ⟨s, hs, h1⟩
      · rw [h1]
        rcases min_choice a (f y) with e | e
        · rw [e]; exact Or.inl rfl
        · rw [e]; exact Or.inr ⟨y, List.mem_cons_self, rfl⟩
      · exact Or.inr ⟨s, List.mem_cons_of_mem _ hs, h1⟩
    · intro x hx
      rcases hx with rfl | ⟨s, hs, rfl⟩
      · exact (h2 (Or.inl rfl)).trans (min_le_left _ _)
      · rcases List.mem_cons.1 hs with rfl | hs
        · exact (h2 (Or.inl rfl)).trans (min_le_right _ _)
        · exact h2 (Or.inr ⟨s, hs, rfl⟩)

theorem lasts_greatest (a : ℤ) (l : List (Src K × K)) (f : Src K × K → ℤ) :
    IsGreatest {x | x = a ∨ ∃ s ∈ l, x = f s} (l.foldl (fun a x => max a (f x)) a) := by
  induction l generalizing a with
  | nil => exact ⟨Or.inl rfl, fun x hx => by rcases hx with rfl | ⟨s, hs, _⟩ <;> simp_all⟩
  | cons y l ih =>
    rw [List.foldl_cons]
    obtain ⟨h1, h2⟩ := ih (max a (f y))
    constructor
    · rcases h1 with h1 | ⟨s, hs, h1⟩
      · rw [h1]
        rcases max_choice a (f y) with e | e
        · rw [e]; exact Or.inl rfl
        · rw [e]; exact Or.inr ⟨y, List.mem_cons_self, rfl⟩
      · exact Or.inr ⟨s, List.mem_cons_of_mem _ hs, h1⟩
    · intro x hx
      rcases hx with rfl | ⟨s, hs, rfl⟩
      · exact le_trans (le_max_left _ _) (h2 (Or.inl rfl))
      · rcases List.mem_cons.1 hs with rfl | hs
        · exact le_trans (le_max_right _ _) (h2 (Or.inl rfl))
        · exact h2 (Or.inr ⟨s, hs, rfl⟩)

/-- **C110.** Files that belong together are read: for every station asked for, in this order, the weighted sum of the series of all sources,
99 where one of them has ended, and the first and last steps of all sources. -/
theorem C110_read {srcs : List (Src K)} {total nt : ℕ} {dt : K} {v : Src K → ℕ → ℕ → K} (h : Ready srcs total nt dt v)
    (weights : List K) (hlen : weights.length = srcs.length) (perm : List ℕ) (hp : ∀ i ∈ perm, i < total) :
    ∃ rows, readMux2 srcs weights perm = .ok (nt, dt, rows) ∧ rows.map Prod.fst = chosen total perm ∧
      ∀ i r, (i, r) ∈ rows → r.vals.length = nt ∧ IsLeast {a | ∃ s ∈ srcs, a = fro s i} r.first ∧
        IsGreatest {a | ∃ s ∈ srcs, a = lro s i} r.last ∧ ∀ k, k < nt →
          ((∀ x ∈ parts srcs weights v i (k + 1), Data x.1) →
            (∀ m, 0 < m → m < srcs.length → Data (weighted ((parts srcs weights v i (k + 1)).take m))) →
            r.vals[k]? = some (weighted (parts srcs weights v i (k + 1)))) ∧
          ((∃ x ∈ parts srcs weights v i (k + 1), ¬ Data x.1) → r.vals[k]? = some 99) := by
  obtain ⟨s0, rest, rfl⟩ := List.exists_cons_of_ne_nil h.some.1
  obtain ⟨w0, ws, rfl⟩ : ∃ a l, weights = a :: l := by
    cases weights with
    | nil => simp at hlen
    | cons a l => exact ⟨a, l, rfl⟩
  refine ⟨_, readMux2_ok h w0 ws perm hp, ?_, ?_⟩
  · rw [List.map_map]
    unfold chosen
    exact List.map_id _
  · intro i r hr
    obtain ⟨j, hj, he⟩ := List.mem_map.1 hr
    simp only [Prod.mk.injEq] at he
    obtain ⟨rfl, rfl⟩ := he
    have hmem : ∀ s, s ∈ rest ↔ ∃ x ∈ rest.zip ws, x.1 = s := by
      intro s
      have hl : rest.length = ws.length := by simpa using hlen.symm
      constructor
      · intro hs
        obtain ⟨n, hn, rfl⟩ := List.mem_iff_getElem.1 hs
        exact ⟨(rest[n], ws[n]), by
          rw [List.mem_iff_getElem]
          exact ⟨n, by simp; omega, by simp⟩, rfl⟩
      · rintro ⟨x, hx, rfl⟩
        exact (List.of_mem_zip hx).1
    refine ⟨by simp, ?_, ?_, ?_⟩
    · have := firsts_least (fro s0 j) (rest.zip ws) fun x => fro x.1 j
      have e : {a | ∃ s ∈ s0 :: rest, a = fro s j} = {x | x = fro s0 j ∨ ∃ s ∈ rest.zip ws, x = fro s.1 j} := by
        ext a
        simp only [Set.mem_ofPred_eq, List.mem_cons]
        constructor
        · rintro ⟨s, rfl | hs, rfl⟩
          · exact Or.inl rfl
          · obtain ⟨x, hx, rfl⟩ := (hmem s).1 hs
            exact Or.inr ⟨x, hx, rfl⟩
        · rintro (rfl | ⟨x, hx, rfl⟩)
          · exact ⟨s0, Or.inl rfl, rfl⟩
          · exact ⟨x.1, Or.inr ((hmem x.1).2 ⟨x, hx, rfl⟩), rfl⟩
      rw [e]
      exact this
    · have := lasts_greatest (lro s0 j) (rest.zip ws) fun x => lro x.1 j
      have e : {a | ∃ s ∈ s0 :: rest, a = lro s j} = {x | x = lro s0 j ∨ ∃ s ∈ rest.zip ws, x = lro s.1 j} := by
        ext a
        simp only [Set.mem_ofPred_eq, List.mem_cons]
        constructor
        · rintro ⟨s, rfl | hs, rfl⟩
          · exact Or.inl rfl
          · obtain ⟨x, hx, rfl⟩ := (hmem s).1 hs
            exact Or.inr ⟨x, hx, rfl⟩
        · rintro (rfl | ⟨x, hx, rfl⟩)
          · exact ⟨s0, Or.inl rfl, rfl⟩
          · exact ⟨x.1, Or.inr ((hmem x.1).2 ⟨x, hx, rfl⟩), rfl⟩
      rw [e]
      exact this
    · intro k hk
      have hmix : mixed v s0.heads ((s0, w0) :: rest.zip ws) 0 j (k + 1) = mixAll (parts (s0 :: rest) (w0 :: ws) v j (k + 1)) 0 := by
        unfold mixed mixAll parts grid
        rw [List.foldl_map]
        rfl
      have hget : ((List.range nt).map fun k => mixed v s0.heads ((s0, w0) :: rest.zip ws) 0 j (k + 1))[k]? =
          some (mixAll (parts (s0 :: rest) (w0 :: ws) v j (k + 1)) 0) := by
        rw [List.getElem?_map, List.getElem?_range hk, ← hmix]
        rfl
      have hpl : (parts (s0 :: rest) (w0 :: ws) v j (k + 1)).length = (s0 :: rest).length := by
        unfold parts
        simp at hlen
        simp [hlen]
      constructor
      · intro h1 h2
        rw [hget, mixAll_sum _ 0 (fun _ => data_zero) (fun x hx => (isdata_iff _).2 (h1 x hx)), zero_add]
        intro m hm hlt
        rw [zero_add, isdata_iff]
        exact h2 m hm (hpl ▸ hlt)
      · rintro ⟨x, hx, hd⟩
        rw [hget, mixAll_missing]
        exact ⟨x, hx, by rw [← isdata_iff] at hd; simpa using hd⟩

end Verif.Mux
