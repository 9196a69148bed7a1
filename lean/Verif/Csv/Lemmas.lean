import Verif.Csv.Spec
import Mathlib.Data.List.Nodup
import Mathlib.Data.List.Basic

set_option linter.unusedSectionVars false

/-! # Lemmas about tables -/

namespace Verif.Csv

variable {C K : Type} [DecidableEq C]

theorem get_append {β : Type} (k : C) (a b : List (C × β)) : get k (a ++ b) = (get k a).or (get k b) := by
  induction a with
  | nil => simp [get]
  | cons x a ih =>
    obtain ⟨k', v⟩ := x
    rw [List.cons_append, get, get]
    by_cases h : k' = k
    · rw [if_pos h, if_pos h, Option.some_or]
    · rw [if_neg h, if_neg h, ih]

theorem get_none {β : Type} (k : C) (d : List (C × β)) : get k d = none ↔ k ∉ d.map Prod.fst := by
  induction d with
  | nil => simp [get]
  | cons x d ih =>
    obtain ⟨k', v⟩ := x
    rw [get]
    by_cases h : k' = k
    · rw [if_pos h]; simp [h]
    · rw [if_neg h, ih]; simp [Ne.symm h]

theorem put_new {β : Type} (k : C) (v : β) (d : List (C × β)) (h : k ∉ d.map Prod.fst) : put k v d = d ++ [(k, v)] := by
  induction d with
  | nil => rfl
  | cons x d ih =>
    obtain ⟨k', v'⟩ := x
    rw [List.map_cons, List.mem_cons, not_or] at h
    rw [put, if_neg (Ne.symm h.1), ih h.2, List.cons_append]

theorem push_new {β : Type} (k : C) (v : β) (d : List (C × List β)) (h : k ∉ d.map Prod.fst) : push k v d = d ++ [(k, [v])] := by
  induction d with
  | nil => rfl
  | cons x d ih =>
    obtain ⟨k', v'⟩ := x
    rw [List.map_cons, List.mem_cons, not_or] at h
    rw [push, if_neg (Ne.symm h.1), ih h.2, List.cons_append]

theorem push_old {β : Type} (k : C) (v : β) (a : List (C × List β)) (l : List β) (b : List (C × List β)) (h : k ∉ a.map Prod.fst) :
    push k v (a ++ (k, l) :: b) = a ++ (k, l ++ [v]) :: b := by
  induction a with
  | nil => rw [List.nil_append, push, if_pos rfl]; rfl
  | cons x a ih =>
    obtain ⟨k', v'⟩ := x
    rw [List.map_cons, List.mem_cons, not_or] at h
    rw [List.cons_append, push, if_neg (Ne.symm h.1), ih h.2, List.cons_append]

theorem put_old {β : Type} (k : C) (v w : β) (a : List (C × β)) (b : List (C × β)) (h : k ∉ a.map Prod.fst) :
    put k v (a ++ (k, w) :: b) = a ++ (k, v) :: b := by
  induction a with
  | nil => rw [List.nil_append, put, if_pos rfl]; rfl
  | cons x a ih =>
    obtain ⟨k', v'⟩ := x
    rw [List.map_cons, List.mem_cons, not_or] at h
    rw [List.cons_append, put, if_neg (Ne.symm h.1), ih h.2, List.cons_append]

theorem foldl_put {β : Type} (l d : List (C × β)) (h : ((d ++ l).map Prod.fst).Nodup) : l.foldl (fun d e => put e.1 e.2 d) d = d ++ l := by
  induction l generalizing d with
  | nil => simp
  | cons x l ih =>
    obtain ⟨k, v⟩ := x
    have hk : k ∉ d.map Prod.fst := by
      intro hk
      rw [List.map_append, List.nodup_append] at h
      exact h.2.2 k hk k (by simp) rfl
    rw [List.foldl_cons, put_new k v d hk, ih (d ++ [(k, v)]) (by simpa using h)]
    simp

theorem index_eq (titles : List C) (h : titles.Nodup) : titles.zipIdx.foldl (fun d e => put e.1 e.2 d) [] = titles.zipIdx := by
  rw [foldl_put _ _ (by simpa [List.zipIdx_map_fst] using h)]
  rfl

theorem foldl_push_new {β : Type} (titles : List C) (row : List β) (d : List (C × List β)) (hl : titles.length ≤ row.length)
    (h : (d.map Prod.fst ++ titles).Nodup) :
    (titles.zip row).foldl (fun d e => push e.1 e.2 d) d = d ++ titles.zip (row.map fun v => [v]) := by
  induction titles generalizing row d with
  | nil => simp
  | cons k titles ih =>
    cases row with
    | nil => simp at hl
    | cons v row =>
      have hk : k ∉ d.map Prod.fst := by
        intro hk
        rw [List.nodup_append] at h
        exact h.2.2 k hk k (by simp) rfl
      rw [List.zip_cons_cons, List.foldl_cons, push_new k v d hk, ih row _ (by simpa using hl) (by simpa using h)]
      simp

theorem foldl_push_old {β : Type} (titles : List C) (cols : List (List β)) (row : List β) (d : List (C × List β)) (hl : titles.length ≤ row.length)
    (hc : cols.length = titles.length) (h : (d.map Prod.fst ++ titles).Nodup) :
    (titles.zip row).foldl (fun d e => push e.1 e.2 d) (d ++ titles.zip cols) = d ++ titles.zip (List.zipWith (fun c v => c ++ [v]) cols row) := by
  induction titles generalizing row d cols with
  | nil => simp
  | cons k titles ih =>
    cases row with
    | nil => simp at hl
    | cons v row =>
      cases cols with
      | nil => simp at hc
      | cons c cols =>
        have hk : k ∉ d.map Prod.fst := by
          intro hk
          rw [List.nodup_append] at h
          exact h.2.2 k hk k (by simp) rfl
        have e1 : (k :: titles).zip (v :: row) = (k, v) :: titles.zip row := rfl
        have e2 : (k :: titles).zip (c :: cols) = (k, c) :: titles.zip cols := rfl
        rw [e1, e2, List.foldl_cons, push_old k v d c _ hk]
        have := ih cols row (d ++ [(k, c ++ [v])]) (by simpa using hl) (by simpa using hc) (by simpa using h)
        simp only [List.append_assoc, List.cons_append, List.nil_append] at this
        rw [this]
        simp

/-- The columns of rows. -/
def colsOf (n : ℕ) (lines : List (List C)) (z : C) : List (List C) := (List.range n).map fun j => lines.map fun r => r.getD j z

theorem addRows_old (titles : List C) (hn : titles.Nodup) (z : C) (lines done : List (List C)) (hl : ∀ r ∈ lines, titles.length ≤ r.length) :
    addRows titles (titles.zip (colsOf titles.length done z)) lines = .ok (titles.zip (colsOf titles.length (done ++ lines) z)) := by
  induction lines generalizing done with
  | nil => simp [addRows]
  | cons r lines ih =>
    have hr := hl r List.mem_cons_self
    rw [addRows, if_neg (by omega)]
    have := foldl_push_old titles (colsOf titles.length done z) r [] hr (by simp [colsOf]) (by simpa using hn)
    rw [List.nil_append, List.nil_append] at this
    rw [addRow, this]
    have e : titles.zip (List.zipWith (fun c v => c ++ [v]) (colsOf titles.length done z) r) = titles.zip (colsOf titles.length (done ++ [r]) z) := by
      congr 1
      apply List.ext_getElem
      · simp [colsOf]; omega
      · intro j h1 h2
        simp [colsOf] at h1 h2 ⊢
        rw [List.getElem?_eq_getElem (by omega), Option.getD_some]
    rw [e, ih (done ++ [r]) fun s hs => hl s (List.mem_cons_of_mem _ hs)]
    simp

theorem addRows_ok (titles : List C) (hn : titles.Nodup) (z : C) (lines : List (List C)) (hne : lines ≠ [])
    (hl : ∀ r ∈ lines, titles.length ≤ r.length) :
    addRows titles [] lines = .ok (titles.zip (colsOf titles.length lines z)) := by
  cases lines with
  | nil => exact absurd rfl hne
  | cons r lines =>
    have hr := hl r List.mem_cons_self
    rw [addRows, if_neg (by omega), addRow, foldl_push_new titles r [] hr (by simpa using hn), List.nil_append]
    have e : titles.zip (r.map fun v => [v]) = titles.zip (colsOf titles.length [r] z) := by
      apply List.ext_getElem
      · simp [colsOf]; omega
      · intro j h1 h2
        simp [colsOf] at h1 h2 ⊢
        rw [List.getElem?_eq_getElem (by omega), Option.getD_some]
    rw [e, addRows_old titles hn z lines [r] fun s hs => hl s (List.mem_cons_of_mem _ hs)]
    rfl

theorem addRows_some (titles : List C) (d : List (C × List C)) (lines : List (List C)) :
    (∃ d', addRows titles d lines = .ok d') ↔ ∀ r ∈ lines, titles.length ≤ r.length := by
  induction lines generalizing d with
  | nil => simp [addRows]
  | cons r lines ih =>
    rw [addRows]
    by_cases h : r.length < titles.length
    · rw [if_pos h]
      constructor
      · rintro ⟨d', h'⟩; cases h'
      · intro h'; have := h' r List.mem_cons_self; omega
    · rw [if_neg h, ih]
      simp only [List.mem_cons, forall_eq_or_imp]
      exact ⟨fun h' => ⟨by omega, h'⟩, And.right⟩

theorem placeIn_zip (vs : List C) (k : ℕ) (a : List (Option C)) (h : a.length = k) :
    placeIn (a ++ List.replicate vs.length none) ((vs.zipIdx k).map fun e => (e.2, e.1)) = .ok (a ++ vs.map some) := by
  induction vs generalizing k a with
  | nil => simp [placeIn]
  | cons v vs ih =>
    rw [List.zipIdx_cons, List.map_cons, placeIn, if_pos (by simp; omega)]
    have e : (a ++ List.replicate (v :: vs).length none).set k (some v) = (a ++ [some v]) ++ List.replicate vs.length none := by
      rw [List.set_append_right _ _ (by omega), List.length_cons, List.replicate_succ, ← h]
      simp
    simp only
    rw [e, ih (k + 1) (a ++ [some v]) (by simp [h])]
    simp

theorem place_zip (vs : List C) : place vs.length ((vs.zipIdx 0).map fun e => (e.2, e.1)) = .ok (vs.map some) := by
  have := placeIn_zip vs 0 [] rfl
  simpa [place] using this

theorem get_zip (titles : List C) (cols : List (List C)) (hn : titles.Nodup) (j : ℕ) (c : C) (hj : titles[j]? = some c) :
    get c (titles.zip cols) = cols[j]? := by
  induction titles generalizing cols j with
  | nil => simp at hj
  | cons k titles ih =>
    rw [List.nodup_cons] at hn
    cases cols with
    | nil => simp [get]
    | cons d cols =>
      rw [List.zip_cons_cons, get]
      cases j with
      | zero =>
        simp at hj
        rw [if_pos hj]; simp
      | succ j =>
        simp at hj
        have : k ≠ c := by rintro rfl; exact hn.1 (List.mem_of_getElem? hj)
        rw [if_neg this, ih cols hn.2 j hj]
        simp

theorem cells_ok (columns : List (C × List C)) (i k : ℕ) (titles : List C) (vs : List C) (hl : vs.length = titles.length)
    (h : ∀ j (hj : j < titles.length), ∃ c, get titles[j] columns = some c ∧ c[i]? = vs[j]?) :
    cells columns i (titles.zipIdx k) = .ok ((vs.zipIdx k).map fun e => (e.2, e.1)) := by
  induction titles generalizing k vs with
  | nil =>
    have : vs = [] := List.eq_nil_of_length_eq_zero (by simpa using hl)
    subst this
    simp [cells]
  | cons t titles ih =>
    cases vs with
    | nil => simp at hl
    | cons v vs =>
      obtain ⟨c, h1, h2⟩ := h 0 (by simp)
      simp only [List.getElem_cons_zero, List.getElem?_cons_zero] at h1 h2
      rw [List.zipIdx_cons, cells, h1, Option.bind_some, h2, ih (k + 1) vs (by simpa using hl) (by
        intro j hj
        obtain ⟨c, h3, h4⟩ := h (j + 1) (by simpa using hj)
        exact ⟨c, by simpa using h3, by simpa using h4⟩)]
      simp

end Verif.Csv
