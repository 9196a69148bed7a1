import Verif.Sparse.Spec
import Mathlib.Algebra.BigOperators.Ring.Finset

/-! # Dictionaries and sums -/

namespace Verif.Sparse

set_option linter.unusedSectionVars false

variable {K : Type*} [Field K]

/-- Value stored, zero if there is none. -/
def look (l : List (Key × K)) (k : Key) : K := (l.lookup k).getD 0

/-- Keys in order. -/
abbrev keys (l : List (Key × K)) : List Key := l.map Prod.fst

theorem lookup_none {l : List (Key × K)} {k : Key} : l.lookup k = none ↔ k ∉ keys l := by
  induction l with
  | nil => simp
  | cons e l ih =>
    simp only [keys, List.map_cons, List.mem_cons, not_or]
    rw [List.lookup_cons]
    by_cases h : k = e.1
    · simp [h]
    · have : (k == e.1) = false := by simpa using h
      rw [this]
      simp only [h, not_false_eq_true, true_and]
      exact ih

theorem lookup_isSome {l : List (Key × K)} {k : Key} : (l.lookup k).isSome = true ↔ k ∈ keys l := by
  rw [← not_iff_not, ← lookup_none, Bool.not_eq_true, Option.isSome_eq_false_iff, Option.isNone_iff_eq_none]

theorem look_nil (k : Key) : look ([] : List (Key × K)) k = 0 := rfl

theorem look_cons (e : Key × K) (l : List (Key × K)) (k : Key) : look (e :: l) k = if k = e.1 then e.2 else look l k := by
  unfold look
  rw [List.lookup_cons]
  by_cases h : k = e.1
  · simp [h]
  · have : (k == e.1) = false := by simpa using h
    rw [this, if_neg h]

theorem look_of_not_mem {l : List (Key × K)} {k : Key} (h : k ∉ keys l) : look l k = 0 := by
  unfold look
  rw [lookup_none.mpr h]; rfl

theorem look_append (l m : List (Key × K)) (k : Key) (h : k ∉ keys l ∨ k ∉ keys m) : look (l ++ m) k = look l k + look m k := by
  induction l with
  | nil => rw [List.nil_append, look_nil, zero_add]
  | cons e l ih =>
    rw [List.cons_append, look_cons, look_cons]
    by_cases hk : k = e.1
    · rw [if_pos hk, if_pos hk]
      rcases h with h | h
      · exact absurd (by simp [hk]) h
      · rw [look_of_not_mem h, add_zero]
    · rw [if_neg hk, if_neg hk]
      exact ih (h.imp_left (fun h hm => h (by simp only [keys, List.map_cons, List.mem_cons]; exact Or.inr hm)))

theorem look_mem {l : List (Key × K)} (hn : (keys l).Nodup) {e : Key × K} (he : e ∈ l) : look l e.1 = e.2 := by
  induction l with
  | nil => simp at he
  | cons f l ih =>
    rw [look_cons]
    simp only [keys, List.map_cons, List.nodup_cons] at hn
    rcases List.mem_cons.mp he with rfl | he
    · simp
    · rw [if_neg, ih hn.2 he]
      rintro h
      exact hn.1 (h ▸ List.mem_map_of_mem he)

theorem keys_put (l : List (Key × K)) (k : Key) (v : K) :
    keys (put l k v) = if k ∈ keys l then keys l else keys l ++ [k] := by
  unfold put
  by_cases h : k ∈ keys l
  · rw [if_pos (lookup_isSome.mpr h), if_pos h]
    simp only [keys, List.map_map]
    apply List.map_congr_left
    intro e _
    simp only [Function.comp]
    split_ifs with he
    · exact he.symm
    · rfl
  · rw [if_neg (fun hh => h (lookup_isSome.mp hh)), if_neg h]
    simp [keys]

theorem look_put (l : List (Key × K)) (k : Key) (v : K) (k' : Key) :
    look (put l k v) k' = if k' = k then v else look l k' := by
  unfold put
  by_cases h : k ∈ keys l
  · rw [if_pos (lookup_isSome.mpr h)]
    clear * - h
    induction l with
    | nil => simp at h
    | cons e l ih =>
      rw [List.map_cons, look_cons, look_cons]
      by_cases he : e.1 = k
      · rw [if_pos he]
        by_cases hk : k' = k
        · simp [hk]
        · have : k' ≠ e.1 := fun h => hk (h.trans he)
          simp only [hk, this, if_false]
          by_cases hm : k ∈ keys l
          · rw [ih hm, if_neg hk]
          · congr 1
            have : ∀ x ∈ l, (if x.1 = k then (k, v) else x) = x := by
              intro x hx
              rw [if_neg]
              rintro rfl
              exact hm (List.mem_map_of_mem hx)
            rw [List.map_congr_left this, List.map_id']
      · rw [if_neg he]
        have hm : k ∈ keys l := by
          simp only [keys, List.map_cons, List.mem_cons] at h
          exact h.resolve_left (fun h => he h.symm)
        rw [ih hm]
        by_cases hk : k' = e.1
        · simp [hk]
          intro h; exact absurd h he
        · simp only [hk, if_false]
  · rw [if_neg (fun hh => h (lookup_isSome.mp hh))]
    by_cases hk : k' = k
    · subst hk
      rw [look_append _ _ _ (Or.inl h), look_of_not_mem h, look_cons]
      simp
    · rw [look_append _ _ _ (Or.inr (by simp [hk])), look_cons, if_neg hk, if_neg hk, look_nil, add_zero]

theorem keys_del (l : List (Key × K)) (k : Key) : keys (del l k) = (keys l).filter (· ≠ k) := by
  unfold del keys
  rw [List.filter_map]
  rfl

theorem look_del (l : List (Key × K)) (k k' : Key) : look (del l k) k' = if k' = k then 0 else look l k' := by
  induction l with
  | nil => simp [del, look_nil]
  | cons e l ih =>
    unfold del at ih ⊢
    by_cases he : e.1 = k
    · rw [List.filter_cons_of_neg (by simp [he]), ih, look_cons]
      by_cases hk : k' = k
      · simp [hk]
      · have : k' ≠ e.1 := fun h => hk (h.trans he)
        simp [hk, this]
    · rw [List.filter_cons_of_pos (by simp [he]), look_cons, look_cons, ih]
      by_cases hk : k' = e.1
      · have : k' ≠ k := fun h => he (hk.symm.trans h)
        simp [hk, he]
      · simp [hk]

/-- Keys are distinct and inside. -/
structure WF (A : Mat K) : Prop where
  nodup : (keys A.data).Nodup
  inside : ∀ k ∈ keys A.data, k.1 < A.M ∧ k.2 < A.N

theorem nodup_put {l : List (Key × K)} (h : (keys l).Nodup) (k : Key) (v : K) : (keys (put l k v)).Nodup := by
  rw [keys_put]
  split_ifs with hk
  · exact h
  · rw [List.nodup_append]
    exact ⟨h, by simp, by rintro a ha b hb rfl; simp at hb; exact hk (hb ▸ ha)⟩

theorem nodup_del {l : List (Key × K)} (h : (keys l).Nodup) (k : Key) : (keys (del l k)).Nodup := by
  rw [keys_del]; exact h.filter _

/-- Entries are nonzero. -/
def NZ (l : List (Key × K)) : Prop := ∀ e ∈ l, e.2 ≠ 0

theorem nz_put {l : List (Key × K)} (h : NZ l) (k : Key) {v : K} (hv : v ≠ 0) : NZ (put l k v) := by
  unfold put
  split_ifs
  · intro e he
    rw [List.mem_map] at he
    obtain ⟨e', h1, rfl⟩ := he
    split_ifs
    · exact hv
    · exact h e' h1
  · intro e he
    rw [List.mem_append] at he
    rcases he with he | he
    · exact h e he
    · simp at he; rw [he]; exact hv

section
variable [DecidableEq K]

theorem set_spec {A : Mat K} (hA : WF A) (i j : ℕ) (x : K) (hi : i < A.M) (hj : j < A.N) :
    ∃ B, A.set i j x = some B ∧ WF B ∧ B.M = A.M ∧ B.N = A.N ∧
      (∀ k, look B.data k = if k = (i, j) then x else look A.data k) ∧ (NZ A.data → NZ B.data) := by
  unfold Mat.set
  rw [if_pos hi, if_pos hj]
  by_cases hx : x ≠ 0
  · rw [if_pos hx]
    refine ⟨_, rfl, ⟨nodup_put hA.nodup _ _, ?_⟩, rfl, rfl, fun k => look_put _ _ _ _, fun h => nz_put h _ hx⟩
    intro k hk
    simp only at hk ⊢
    rw [keys_put] at hk
    split_ifs at hk with h
    · exact hA.inside k hk
    · rw [List.mem_append] at hk
      rcases hk with hk | hk
      · exact hA.inside k hk
      · simp at hk; subst hk; exact ⟨hi, hj⟩
  · rw [if_neg hx]
    push Not at hx
    subst hx
    by_cases h : (A.data.lookup (i, j)).isSome = true
    · rw [if_pos h]
      refine ⟨_, rfl, ⟨nodup_del hA.nodup _, ?_⟩, rfl, rfl, fun k => look_del _ _ _, ?_⟩
      · intro k hk
        simp only at hk ⊢
        rw [keys_del, List.mem_filter] at hk
        exact hA.inside k hk.1
      · intro hn e he
        exact hn e (List.mem_of_mem_filter he)
    · rw [if_neg h]
      refine ⟨A, rfl, hA, rfl, rfl, fun k => ?_, id⟩
      split_ifs with hk
      · rw [hk, look_of_not_mem (fun hm => h (lookup_isSome.mpr hm))]
      · rfl

theorem set_outside (A : Mat K) (i j : ℕ) (x : K) (h : ¬ (i < A.M ∧ j < A.N)) : A.set i j x = none := by
  unfold Mat.set
  by_cases hi : i < A.M
  · rw [if_pos hi, if_neg (fun hj => h ⟨hi, hj⟩)]
  · rw [if_neg hi]

theorem get_spec (A : Mat K) (i j : ℕ) : A.get i j = if i < A.M ∧ j < A.N then some (look A.data (i, j)) else none := by
  unfold Mat.get look
  by_cases hi : i < A.M <;> by_cases hj : j < A.N <;> simp only [hi, hj, if_true, if_false, and_true, and_false, and_self]
  cases List.lookup (i, j) A.data <;> rfl

/-- Copying one dictionary into another matrix. -/
theorem fold_set (l : List (Key × K)) : ∀ (B : Mat K), WF B → (keys l).Nodup → (∀ k ∈ keys l, k.1 < B.M ∧ k.2 < B.N) →
    ∃ C, l.foldlM (fun (B : Mat K) e => B.set e.1.1 e.1.2 e.2) B = some C ∧ WF C ∧ C.M = B.M ∧ C.N = B.N ∧
      (∀ k, look C.data k = if k ∈ keys l then look l k else look B.data k) ∧ (NZ B.data → NZ C.data) := by
  induction l with
  | nil => intro B hB _ _; exact ⟨B, rfl, hB, rfl, rfl, by simp, id⟩
  | cons e l ih =>
    intro B hB hn hi
    simp only [keys, List.map_cons, List.nodup_cons] at hn
    have he := hi e.1 (by simp)
    obtain ⟨B', h1, h2, h3, h4, h5, h6⟩ := set_spec hB e.1.1 e.1.2 e.2 he.1 he.2
    obtain ⟨C, k1, k2, k3, k4, k5, k6⟩ := ih B' h2 hn.2 (by
      intro k hk; rw [h3, h4]; exact hi k (by simp only [keys, List.map_cons, List.mem_cons]; exact Or.inr hk))
    refine ⟨C, ?_, k2, k3.trans h3, k4.trans h4, ?_, fun h => k6 (h6 h)⟩
    · rw [List.foldlM_cons, h1]; exact k1
    · intro k
      rw [k5 k, h5 k, look_cons]
      by_cases hk : k = e.1
      · have : k ∉ keys l := hk ▸ hn.1
        rw [if_neg this, if_pos hk, if_pos hk, if_pos (by simp [hk])]
      · simp only [keys, List.map_cons, List.mem_cons, hk, if_false, false_or]

theorem copy_spec {A : Mat K} (hA : WF A) :
    ∃ B, A.copy = some B ∧ WF B ∧ B.M = A.M ∧ B.N = A.N ∧ (∀ k, look B.data k = look A.data k) ∧ NZ B.data := by
  obtain ⟨C, h1, h2, h3, h4, h5, h6⟩ := fold_set A.data (Mat.empty A.M A.N) ⟨by simp [Mat.empty], by simp [Mat.empty]⟩ hA.nodup hA.inside
  refine ⟨C, h1, h2, h3, h4, fun k => ?_, h6 (by simp [Mat.empty, NZ])⟩
  rw [h5 k]
  split_ifs with h
  · rfl
  · rw [look_of_not_mem h]; rfl

theorem fold_add (l : List (Key × K)) : ∀ (B : Mat K), WF B → (keys l).Nodup → (∀ k ∈ keys l, k.1 < B.M ∧ k.2 < B.N) →
    ∃ C, l.foldlM (fun (B : Mat K) e => do
      let old ← B.get e.1.1 e.1.2
      B.set e.1.1 e.1.2 (old + e.2)) B = some C ∧ WF C ∧ C.M = B.M ∧ C.N = B.N ∧
      (∀ k, look C.data k = look l k + look B.data k) ∧ (NZ B.data → NZ C.data) := by
  induction l with
  | nil => intro B hB _ _; exact ⟨B, rfl, hB, rfl, rfl, by simp [look_nil], id⟩
  | cons e l ih =>
    intro B hB hn hi
    simp only [keys, List.map_cons, List.nodup_cons] at hn
    have he := hi e.1 (by simp)
    obtain ⟨B', h1, h2, h3, h4, h5, h6⟩ := set_spec hB e.1.1 e.1.2 (look B.data (e.1.1, e.1.2) + e.2) he.1 he.2
    obtain ⟨C, k1, k2, k3, k4, k5, k6⟩ := ih B' h2 hn.2 (by
      intro k hk; rw [h3, h4]; exact hi k (by simp only [keys, List.map_cons, List.mem_cons]; exact Or.inr hk))
    refine ⟨C, ?_, k2, k3.trans h3, k4.trans h4, ?_, fun h => k6 (h6 h)⟩
    · rw [List.foldlM_cons, get_spec, if_pos he]
      simp only [Option.bind_eq_bind, Option.bind_some, h1]
      exact k1
    · intro k
      rw [k5 k, h5 k, look_cons]
      by_cases hk : k = e.1
      · have h0 : look l k = 0 := look_of_not_mem (hk ▸ hn.1)
        rw [h0, if_pos hk, if_pos hk, zero_add, add_comm, hk]
      · have : k ≠ (e.1.1, e.1.2) := hk
        rw [if_neg hk, if_neg this]

theorem look_map_mul (c : K) (l : List (Key × K)) (k : Key) : look (l.map (fun e => (e.1, c * e.2))) k = c * look l k := by
  induction l with
  | nil => simp [look_nil]
  | cons e l ih =>
    rw [List.map_cons, look_cons, look_cons, ih]
    simp only [mul_ite]

end

/-! ## Products -/

theorem getD_replicate (n i : ℕ) : (List.replicate n (0 : K)).getD i 0 = 0 := by
  by_cases h : i < n <;> simp [h]

theorem bump_get (R : List K) (i : ℕ) (v : K) (a : ℕ) : (bump R i v).getD a 0 = R.getD a 0 + if a = i ∧ i < R.length then v else 0 := by
  unfold bump
  rw [List.getD_eq_getElem?_getD, List.getD_eq_getElem?_getD, List.getElem?_modify]
  by_cases h : i = a
  · subst h
    by_cases hl : i < R.length
    · simp [hl]
    · simp [hl]
  · have h' : ¬ a = i := fun hh => h hh.symm
    simp only [h, h', if_false, false_and, add_zero]
    cases R[a]? <;> rfl

theorem fold_bump (row : Key → ℕ) (g : Key × K → K) (l : List (Key × K)) : ∀ R : List K,
    (l.foldl (fun R e => bump R (row e.1) (g e)) R).length = R.length ∧
      ∀ a < R.length, (l.foldl (fun R e => bump R (row e.1) (g e)) R).getD a 0 =
        R.getD a 0 + (l.map (fun e => if row e.1 = a then g e else 0)).sum := by
  induction l with
  | nil => intro R; simp
  | cons e l ih =>
    intro R
    have hl : (bump R (row e.1) (g e)).length = R.length := by simp [bump]
    obtain ⟨h1, h2⟩ := ih (bump R (row e.1) (g e))
    refine ⟨by rw [List.foldl_cons, h1, hl], fun a ha => ?_⟩
    rw [List.foldl_cons, h2 a (by rw [hl]; exact ha), bump_get, List.map_cons, List.sum_cons]
    have : (if a = row e.1 ∧ row e.1 < R.length then g e else 0) = if row e.1 = a then g e else 0 := by
      by_cases h : row e.1 = a
      · rw [if_pos h, if_pos ⟨h.symm, h ▸ ha⟩]
      · rw [if_neg h, if_neg (fun hh => h hh.1.symm)]
    rw [this]
    ring

/-- The entries of a row, summed in any order. -/
theorem sum_row (l : List (Key × K)) (N : ℕ) (g : ℕ → K) (hn : (keys l).Nodup) (hi : ∀ k ∈ keys l, k.2 < N) (i : ℕ) :
    (l.map (fun e => if e.1.1 = i then e.2 * g e.1.2 else 0)).sum = ∑ j ∈ Finset.range N, look l (i, j) * g j := by
  induction l with
  | nil => simp [look_nil]
  | cons e l ih =>
    simp only [keys, List.map_cons, List.nodup_cons] at hn
    rw [List.map_cons, List.sum_cons, ih hn.2 (fun k hk => hi k (by simp only [keys, List.map_cons, List.mem_cons]; exact Or.inr hk))]
    have key : ∀ j, look (e :: l) (i, j) * g j = (if (i, j) = e.1 then e.2 * g j else 0) + look l (i, j) * g j := by
      intro j
      rw [look_cons]
      split_ifs with h
      · rw [look_of_not_mem (h ▸ hn.1)]; ring
      · ring
    simp only [key, Finset.sum_add_distrib]
    congr 1
    by_cases h : e.1.1 = i
    · rw [if_pos h, Finset.sum_eq_single e.1.2]
      · rw [if_pos (by rw [← h])]
      · intro j _ hj
        rw [if_neg]
        intro hh
        exact hj (by rw [← hh])
      · intro hh
        exact absurd (Finset.mem_range.mpr (hi e.1 (by simp))) hh
    · rw [if_neg h]
      symm
      apply Finset.sum_eq_zero
      intro j _
      rw [if_neg]
      intro hh
      exact h (by rw [← hh])

theorem sum_col (l : List (Key × K)) (M : ℕ) (g : ℕ → K) (hn : (keys l).Nodup) (hi : ∀ k ∈ keys l, k.1 < M) (j : ℕ) :
    (l.map (fun e => if e.1.2 = j then e.2 * g e.1.1 else 0)).sum = ∑ i ∈ Finset.range M, look l (i, j) * g i := by
  induction l with
  | nil => simp [look_nil]
  | cons e l ih =>
    simp only [keys, List.map_cons, List.nodup_cons] at hn
    rw [List.map_cons, List.sum_cons, ih hn.2 (fun k hk => hi k (by simp only [keys, List.map_cons, List.mem_cons]; exact Or.inr hk))]
    have key : ∀ i, look (e :: l) (i, j) * g i = (if (i, j) = e.1 then e.2 * g i else 0) + look l (i, j) * g i := by
      intro i
      rw [look_cons]
      split_ifs with h
      · rw [look_of_not_mem (h ▸ hn.1)]; ring
      · ring
    simp only [key, Finset.sum_add_distrib]
    congr 1
    by_cases h : e.1.2 = j
    · rw [if_pos h, Finset.sum_eq_single e.1.1]
      · rw [if_pos (by rw [← h])]
      · intro i _ hj
        rw [if_neg]
        intro hh
        exact hj (by rw [← hh])
      · intro hh
        exact absurd (Finset.mem_range.mpr (hi e.1 (by simp))) hh
    · rw [if_neg h]
      symm
      apply Finset.sum_eq_zero
      intro i _
      rw [if_neg]
      intro hh
      exact h (by rw [← hh])

end Verif.Sparse
