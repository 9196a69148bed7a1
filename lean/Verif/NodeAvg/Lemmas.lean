import Verif.NodeAvg.Model
import Verif.NodeAvg.Spec
import Mathlib.Algebra.BigOperators.Group.List.Basic
import Mathlib.Tactic.Ring
import Mathlib.Tactic.Linarith

set_option linter.unusedSectionVars false

namespace Verif.NodeAvg

variable {K : Type*} [Field K]

/-- Corners of `L` at node `v`. -/
def at_ (key : ℕ → ℕ) (L : List ℕ) (v : ℕ) : List ℕ := L.filter (fun c => key c = v)

theorem at_cons (key : ℕ → ℕ) (c : ℕ) (L : List ℕ) (v : ℕ) :
    at_ key (c :: L) v = if key c = v then c :: at_ key L v else at_ key L v := by
  unfold at_
  by_cases h : key c = v <;> simp [h]

/-- Main loop invariant. -/
theorem avg_loop (key : ℕ → ℕ) (cnt : ℕ → ℕ) (val : ℕ → K) (hgap : ∀ v w, cnt v = 0 → v ≤ w → cnt w = 0) (L : List ℕ) :
    ∀ s : AvgState K, L.Pairwise (fun c d => key c ≤ key d) → (∀ c ∈ L, s.cur ≤ key c) →
    s.k + (at_ key L s.cur).length = cnt s.cur → (cnt s.cur = 0 ∨ s.k < cnt s.cur) →
    (∀ w, s.cur < w → (at_ key L w).length = cnt w) →
    (cnt s.cur = 0 → s.total = 0) →
    ∃ new : List (ℕ × K), (L.foldl (avgStep cnt val) s).writes = new ++ s.writes ∧
      (∀ v x, (v, x) ∈ new → s.cur ≤ v ∧ 0 < cnt v) ∧
      (∀ w, s.cur < w → 0 < cnt w → new.lookup w = some (((at_ key L w).map val).sum / (cnt w : K))) ∧
      (0 < cnt s.cur → new.lookup s.cur = some ((s.total + ((at_ key L s.cur).map val).sum) / (cnt s.cur : K))) := by
  induction L with
  | nil =>
    intro s _ _ hk hlt hw _
    have h0 : cnt s.cur = 0 := by
      rcases hlt with h | h
      · exact h
      · simp [at_] at hk; omega
    refine ⟨[], by simp, by simp, ?_, ?_⟩
    · intro w hw' hp
      have := hgap _ w h0 (by omega)
      omega
    · intro h; omega
  | cons c L ih =>
    intro s hs hge hk hlt hw htot
    rw [List.pairwise_cons] at hs
    have hc : s.cur ≤ key c := hge c (by simp)
    have hne : cnt s.cur ≠ 0 := by
      intro h0
      have h1 := hgap _ (key c) h0 hc
      rcases Nat.eq_or_lt_of_le hc with e | e
      · rw [e] at hk
        rw [at_cons, if_pos rfl] at hk
        simp at hk; omega
      · have := hw _ e
        rw [at_cons, if_pos rfl] at this
        simp at this; omega
    have hkey : key c = s.cur := by
      by_contra hne'
      have hempty : at_ key (c :: L) s.cur = [] := by
        unfold at_
        rw [List.filter_eq_nil_iff]
        intro d hd
        have : key c ≤ key d := by
          rcases List.mem_cons.mp hd with rfl | hd
          · exact le_refl _
          · exact hs.1 d hd
        simp; omega
      rw [hempty] at hk
      simp at hk
      rcases hlt with h | h <;> omega
    rw [at_cons, if_pos hkey] at hk
    simp only [List.length_cons] at hk
    rw [List.foldl_cons]
    by_cases hfull : cnt s.cur = s.k + 1
    · have hstep : avgStep cnt val s c =
          { k := 0, cur := s.cur + 1, total := 0, writes := (s.cur, (s.total + val c) / ((s.k + 1 : ℕ) : K)) :: s.writes } := by
        unfold avgStep
        rw [if_neg hne]
        simp [hfull]
      have hLempty : at_ key L s.cur = [] := by
        apply List.eq_nil_of_length_eq_zero; omega
      rw [hstep]
      obtain ⟨new, e1, e2, e3, e4⟩ := ih { k := 0, cur := s.cur + 1, total := 0, writes := (s.cur, (s.total + val c) / ((s.k + 1 : ℕ) : K)) :: s.writes } hs.2
        (by
          intro d hd
          have h1 := hs.1 d hd
          have h2 : key d ≠ s.cur := by
            intro h2
            have : d ∈ at_ key L s.cur := by unfold at_; simp [hd, h2]
            rw [hLempty] at this; cases this
          show s.cur + 1 ≤ key d
          omega)
        (by
          have := hw (s.cur + 1) (by omega)
          rw [at_cons, if_neg (by omega)] at this
          simpa using this)
        (by
          show cnt (s.cur + 1) = 0 ∨ 0 < cnt (s.cur + 1)
          omega)
        (by
          intro w hw'
          have hw'' : s.cur + 1 < w := hw'
          have := hw w (by omega)
          rwa [at_cons, if_neg (by omega)] at this)
        (fun _ => rfl)
      simp only at e1 e2 e3 e4
      refine ⟨new ++ [(s.cur, (s.total + val c) / ((s.k + 1 : ℕ) : K))], by rw [e1]; simp, ?_, ?_, ?_⟩
      · intro v x hx
        rcases List.mem_append.mp hx with hx | hx
        · have := e2 v x hx; omega
        · simp at hx; rw [hx.1]; omega
      · intro w hw' hp
        rw [at_cons, if_neg (by omega), List.lookup_append]
        rcases Nat.eq_or_lt_of_le (Nat.succ_le_of_lt hw') with e | e
        · subst e
          have := e4 hp
          simp only [Nat.succ_eq_add_one] at *
          rw [this]; simp
        · rw [e3 w e hp]; simp
      · intro _
        rw [List.lookup_append]
        have : new.lookup s.cur = none := by
          cases hl : new.lookup s.cur with
          | none => rfl
          | some y =>
            exfalso
            have hmem : (s.cur, y) ∈ new := by
              obtain ⟨l1, l2, hl', _⟩ := List.lookup_eq_some_iff.mp hl
              rw [hl']; simp
            have := e2 _ _ hmem; omega
        rw [this, at_cons, if_pos hkey, hLempty, hfull]
        simp
    · have hstep : avgStep cnt val s c = { s with k := s.k + 1, total := s.total + val c } := by
        unfold avgStep
        rw [if_neg hne]
        simp [hfull]
      rw [hstep]
      obtain ⟨new, e1, e2, e3, e4⟩ := ih { s with k := s.k + 1, total := s.total + val c } hs.2
        (fun d hd => hge d (List.mem_cons_of_mem _ hd))
        (by show s.k + 1 + (at_ key L s.cur).length = cnt s.cur; omega)
        (by show cnt s.cur = 0 ∨ s.k + 1 < cnt s.cur; omega)
        (by
          intro w hw'
          have hw'' : s.cur < w := hw'
          have := hw w hw''
          rwa [at_cons, if_neg (by omega)] at this)
        (by intro h; exact absurd h hne)
      simp only at e1 e2 e3 e4
      refine ⟨new, e1, e2, ?_, ?_⟩
      · intro w hw' hp
        rw [at_cons, if_neg (by omega)]
        exact e3 w hw' hp
      · intro hp
        rw [at_cons, if_pos hkey, e4 hp]
        simp [add_assoc]

theorem mem_cornersAt (flat : List ℕ) (v c : ℕ) : c ∈ cornersAt flat v ↔ flat[c]? = some v := by
  unfold cornersAt
  simp only [Finset.mem_filter, Finset.mem_range, and_iff_right_iff_imp]
  intro h
  exact (List.getElem?_eq_some_iff.mp h).1

theorem nodeOf_eq {flat : List ℕ} {c : ℕ} (hc : c < flat.length) (v : ℕ) : nodeOf flat c = v ↔ flat[c]? = some v := by
  unfold nodeOf
  simp [List.getD, hc]

/-- Corners found in the sorted array are the corners at the node. -/
theorem at_sum (flat vvi : List ℕ) (h : IsArgsort flat vvi) (val : ℕ → K) (v : ℕ) :
    ((at_ (nodeOf flat) vvi v).map val).sum = ∑ c ∈ cornersAt flat v, val c := by
  have hnd : (at_ (nodeOf flat) vvi v).Nodup := (h.perm.nodup_iff.mpr List.nodup_range).filter _
  rw [← List.sum_toFinset _ hnd]
  congr 1
  ext c
  rw [mem_cornersAt, List.mem_toFinset]
  unfold at_
  simp only [List.mem_filter, decide_eq_true_eq, h.perm.mem_iff, List.mem_range]
  constructor
  · rintro ⟨h1, h2⟩; exact (nodeOf_eq h1 v).mp h2
  · intro h1
    have hc := (List.getElem?_eq_some_iff.mp h1).1
    exact ⟨hc, (nodeOf_eq hc v).mpr h1⟩

theorem count_eq_range (flat : List ℕ) (v : ℕ) :
    flat.count v = ((List.range flat.length).filter (fun c => nodeOf flat c = v)).length := by
  have h : flat = (List.range flat.length).map (nodeOf flat) := by
    apply List.ext_getElem
    · simp
    · intro i h1 h2
      simp [nodeOf, List.getD, h1]
  conv_lhs => rw [h]
  rw [List.count, List.countP_map, List.countP_eq_length_filter]
  rfl

theorem at_length (flat vvi : List ℕ) (h : IsArgsort flat vvi) (v : ℕ) :
    (at_ (nodeOf flat) vvi v).length = perNode flat v := by
  unfold perNode at_
  rw [count_eq_range]
  exact (h.perm.filter _).length_eq

theorem card_cornersAt (flat : List ℕ) (v : ℕ) : (cornersAt flat v).card = perNode flat v := by
  unfold perNode
  rw [count_eq_range]
  rw [← List.toFinset_card_of_nodup (List.nodup_range.filter _)]
  congr 1
  ext c
  rw [mem_cornersAt, List.mem_toFinset, List.mem_filter, List.mem_range]
  simp only [decide_eq_true_eq]
  constructor
  · intro h1
    have hc := (List.getElem?_eq_some_iff.mp h1).1
    exact ⟨hc, (nodeOf_eq hc v).mpr h1⟩
  · rintro ⟨h1, h2⟩; exact (nodeOf_eq h1 v).mp h2

/-! ### Setting node values -/

/-- A list sorted by key splits into the keys below, at and above `u`. -/
theorem sorted_split (key : ℕ → ℕ) (u : ℕ) (L : List ℕ) (hs : L.Pairwise (fun c d => key c ≤ key d)) :
    L = L.filter (fun c => key c < u) ++ (L.filter (fun c => key c = u) ++ L.filter (fun c => u < key c)) := by
  induction L with
  | nil => rfl
  | cons c L ih =>
    rw [List.pairwise_cons] at hs
    have ih' := ih hs.2
    rcases Nat.lt_trichotomy (key c) u with h | h | h
    · have h2 : ¬ key c = u := by omega
      have h3 : ¬ u < key c := by omega
      simp only [List.filter_cons, h, h2, h3, decide_true, decide_false, if_true, List.cons_append]
      simp only [Bool.false_eq_true, if_false]
      rw [← ih']
    · have h0 : L.filter (fun c => decide (key c < u)) = [] := by
        rw [List.filter_eq_nil_iff]; intro d hd; have := hs.1 d hd; simp; omega
      rw [h0, List.nil_append] at ih'
      simp only [List.filter_cons, h, lt_irrefl, decide_true, decide_false, if_true, Bool.false_eq_true, if_false, h0,
        List.nil_append, List.cons_append]
      rw [← ih']
    · have h0 : L.filter (fun c => decide (key c < u)) = [] := by
        rw [List.filter_eq_nil_iff]; intro d hd; have := hs.1 d hd; simp; omega
      have h1 : L.filter (fun c => decide (key c = u)) = [] := by
        rw [List.filter_eq_nil_iff]; intro d hd; have := hs.1 d hd; simp; omega
      have h2 : ¬ key c < u := by omega
      have h3 : ¬ key c = u := by omega
      simp only [List.filter_cons, h2, h3, h, decide_true, decide_false, if_true, Bool.false_eq_true, if_false, h0, h1,
        List.nil_append]
      rw [h0, h1, List.nil_append, List.nil_append] at ih'
      rw [← ih']

theorem nodeIndex_eq (flat vvi : List ℕ) (h : IsArgsort flat vvi) (u : ℕ) :
    nodeIndex flat u = (vvi.filter (fun c => nodeOf flat c < u)).length := by
  induction u with
  | zero => simp [nodeIndex]
  | succ u ih =>
    unfold nodeIndex
    rw [ih, ← at_length flat vvi h u]
    unfold at_
    rw [← List.countP_eq_length_filter, ← List.countP_eq_length_filter, ← List.countP_eq_length_filter]
    generalize vvi = L
    induction L with
    | nil => rfl
    | cons c L ih2 =>
      simp only [List.countP_cons]
      rcases Nat.lt_trichotomy (nodeOf flat c) u with h' | h' | h'
      · have : ¬ nodeOf flat c = u := by omega
        have h3 : nodeOf flat c < u + 1 := by omega
        simp [h', this, h3]; omega
      · have : ¬ nodeOf flat c < u := by omega
        have h3 : nodeOf flat c < u + 1 := by omega
        simp [h', h3]; omega
      · have : ¬ nodeOf flat c < u := by omega
        have h2 : ¬ nodeOf flat c = u := by omega
        have h3 : ¬ nodeOf flat c < u + 1 := by omega
        simp [this, h2, h3]; omega

/-- The block read for node `u` is exactly the corners at `u`. -/
theorem block_eq (flat vvi : List ℕ) (h : IsArgsort flat vvi) (u j : ℕ) (hj : j < perNode flat u) :
    ∃ hl : j < (at_ (nodeOf flat) vvi u).length,
      vvi.getD (nodeIndex flat u + j) 0 = (at_ (nodeOf flat) vvi u)[j] := by
  have hl : j < (at_ (nodeOf flat) vvi u).length := by rw [at_length flat vvi h]; exact hj
  refine ⟨hl, ?_⟩
  have hs := sorted_split (nodeOf flat) u vvi h.sorted
  have e : vvi[nodeIndex flat u + j]? = (at_ (nodeOf flat) vvi u)[j]? := by
    conv_lhs => rw [hs]
    rw [List.getElem?_append_right (by rw [nodeIndex_eq flat vvi h]; omega), nodeIndex_eq flat vvi h, Nat.add_sub_cancel_left,
      List.getElem?_append_left (by exact hl)]
    rfl
  rw [List.getD, e, List.getElem?_eq_getElem hl]
  rfl

theorem foldl_update_apply (a : K) (g : ℕ → ℕ) (L : List ℕ) : ∀ (vals : ℕ → K) (c : ℕ),
    (L.foldl (fun vals j => Function.update vals (g j) a) vals) c = if c ∈ L.map g then a else vals c := by
  induction L with
  | nil => intro vals c; simp
  | cons x L ih =>
    intro vals c
    rw [List.foldl_cons, ih]
    by_cases h1 : c ∈ L.map g
    · rw [if_pos h1, if_pos (by rw [List.map_cons]; exact List.mem_cons_of_mem _ h1)]
    · rw [if_neg h1]
      by_cases h2 : c = g x
      · rw [if_pos (by rw [List.map_cons, h2]; exact List.mem_cons_self), h2, Function.update_self]
      · rw [Function.update_of_ne h2, if_neg]
        rw [List.map_cons, List.mem_cons]
        tauto

theorem setNode_apply (flat vvi : List ℕ) (h : IsArgsort flat vvi) (u : ℕ) (a : K) (vals : ℕ → K) (c : ℕ) :
    setNode vvi (nodeIndex flat u) (perNode flat u) a vals c = if flat[c]? = some u then a else vals c := by
  unfold setNode
  rw [foldl_update_apply]
  have : c ∈ (List.range (perNode flat u)).map (fun j => vvi.getD (nodeIndex flat u + j) 0) ↔ flat[c]? = some u := by
    have hmem : c ∈ at_ (nodeOf flat) vvi u ↔ flat[c]? = some u := by
      unfold at_
      simp only [List.mem_filter, decide_eq_true_eq, h.perm.mem_iff, List.mem_range]
      constructor
      · rintro ⟨h1, h2⟩; exact (nodeOf_eq h1 u).mp h2
      · intro h1
        have hc := (List.getElem?_eq_some_iff.mp h1).1
        exact ⟨hc, (nodeOf_eq hc u).mpr h1⟩
    rw [← hmem]
    simp only [List.mem_map, List.mem_range]
    constructor
    · rintro ⟨j, hj, rfl⟩
      obtain ⟨hl, e⟩ := block_eq flat vvi h u j hj
      rw [e]; exact List.getElem_mem hl
    · intro hm
      obtain ⟨j, hj, e⟩ := List.getElem_of_mem hm
      have hj' : j < perNode flat u := by rwa [at_length flat vvi h] at hj
      obtain ⟨hl, e'⟩ := block_eq flat vvi h u j hj'
      exact ⟨j, hj', by rw [e', e]⟩
  simp only [this]

end Verif.NodeAvg
