import Verif.Lib.Spec
import Mathlib.Data.List.Perm.Basic
import Mathlib.Tactic.Ring

/-!
# The order of points along a boundary
-/

set_option linter.unusedSectionVars false

namespace Verif.Lib

variable {K R : Type} [Field K] [LinearOrder K]

theorem dist2_eq (p q : K × K) : dist2 p q = (q.1 - p.1) ^ 2 + (q.2 - p.2) ^ 2 := by
  unfold dist2; ring

theorem nearestFrom_some (pos : R → K × K) (p : K × K) (i b : ℕ) (d : K) (l : List R) :
    ∃ j, nearestFrom pos p i (some (b, d)) l = some j ∧
      ((j = b ∧ ∀ r ∈ l, d ≤ dist2 p (pos r)) ∨
        ∃ k q, j = i + k ∧ l[k]? = some q ∧ dist2 p (pos q) < d ∧ (∀ m : ℕ, ∀ r, l[m]? = some r → dist2 p (pos q) ≤ dist2 p (pos r)) ∧
          ∀ m : ℕ, ∀ r, m < k → l[m]? = some r → dist2 p (pos q) < dist2 p (pos r)) := by
  induction l generalizing i b d with
  | nil => exact ⟨b, rfl, .inl ⟨rfl, by simp⟩⟩
  | cons a l ih =>
    by_cases h : dist2 p (pos a) < d
    · obtain ⟨j, hj, hc⟩ := ih (i + 1) i (dist2 p (pos a))
      refine ⟨j, ?_, .inr ?_⟩
      · rw [nearestFrom]; simpa only [if_pos h] using hj
      · rcases hc with ⟨rfl, h1⟩ | ⟨k, q, rfl, h2, h3, h4, h5⟩
        · refine ⟨0, a, rfl, rfl, h, ?_, by simp⟩
          intro m r hm
          cases m with
          | zero => simp at hm; rw [hm]
          | succ m => exact h1 r (List.mem_of_getElem? (by simpa using hm))
        · refine ⟨k + 1, q, by omega, by simpa using h2, h3.trans h, ?_, ?_⟩
          · intro m r hm
            cases m with
            | zero => simp at hm; subst hm; exact h3.le
            | succ m => exact h4 m r (by simpa using hm)
          · intro m r hk hm
            cases m with
            | zero => simp at hm; subst hm; exact h3
            | succ m => exact h5 m r (by omega) (by simpa using hm)
    · obtain ⟨j, hj, hc⟩ := ih (i + 1) b d
      refine ⟨j, ?_, ?_⟩
      · rw [nearestFrom]; simpa only [if_neg h] using hj
      · rcases hc with ⟨rfl, h1⟩ | ⟨k, q, rfl, h2, h3, h4, h5⟩
        · left
          refine ⟨rfl, ?_⟩
          intro r hr
          rcases List.mem_cons.mp hr with rfl | hr
          · exact not_lt.mp h
          · exact h1 r hr
        · right
          refine ⟨k + 1, q, by omega, by simpa using h2, h3, ?_, ?_⟩
          · intro m r hm
            cases m with
            | zero => simp at hm; subst hm; exact (h3.trans_le (not_lt.mp h)).le
            | succ m => exact h4 m r (by simpa using hm)
          · intro m r hk hm
            cases m with
            | zero => simp at hm; subst hm; exact h3.trans_le (not_lt.mp h)
            | succ m => exact h5 m r (by omega) (by simpa using hm)

theorem nearest_cons (pos : R → K × K) (p : K × K) (l : List R) (hl : l ≠ []) :
    ∃ j q, nearestFrom pos p 0 none l = some j ∧ l[j]? = some q ∧ (∀ m : ℕ, ∀ r, l[m]? = some r → dist2 p (pos q) ≤ dist2 p (pos r)) ∧
      ∀ m : ℕ, ∀ r, m < j → l[m]? = some r → dist2 p (pos q) < dist2 p (pos r) := by
  cases l with
  | nil => exact absurd rfl hl
  | cons a l =>
    obtain ⟨j, hj, hc⟩ := nearestFrom_some pos p 1 0 (dist2 p (pos a)) l
    rcases hc with ⟨rfl, h1⟩ | ⟨k, q, rfl, h2, h3, h4, h5⟩
    · refine ⟨0, a, hj, rfl, ?_, by simp⟩
      intro m r hm
      cases m with
      | zero => simp at hm; rw [hm]
      | succ m => exact h1 r (List.mem_of_getElem? (by simpa using hm))
    · refine ⟨1 + k, q, hj, by rw [Nat.add_comm]; simpa using h2, ?_, ?_⟩
      · intro m r hm
        cases m with
        | zero => simp at hm; subst hm; exact h3.le
        | succ m => exact h4 m r (by simpa using hm)
      · intro m r hk hm
        cases m with
        | zero => simp at hm; subst hm; exact h3
        | succ m => exact h5 m r (by omega) (by simpa using hm)

theorem pair_sublist {l : List R} {i m : ℕ} {q r : R} (h : i < m) (hq : l[i]? = some q) (hr : l[m]? = some r) : List.Sublist [q, r] l := by
  induction l generalizing i m with
  | nil => simp at hq
  | cons a l ih =>
    cases m with
    | zero => omega
    | succ m =>
      cases i with
      | zero =>
        simp at hq hr
        subst hq
        exact List.Sublist.cons_cons a (List.singleton_sublist.mpr (List.mem_of_getElem? hr))
      | succ i => exact (ih (i := i) (m := m) (by omega) (by simpa using hq) (by simpa using hr)).cons a

theorem perm_eraseIdx {l : List R} {i : ℕ} {q : R} (h : l[i]? = some q) : (q :: l.eraseIdx i).Perm l := by
  induction l generalizing i with
  | nil => simp at h
  | cons a l ih =>
    cases i with
    | zero => simp at h; subst h; simp
    | succ i =>
      simp only [List.eraseIdx_cons_succ]
      exact (List.Perm.swap a q _).trans ((ih (by simpa using h)).cons a)

theorem mem_eraseIdx {l : List R} {i : ℕ} {r : R} (h : r ∈ l.eraseIdx i) : ∃ m : ℕ, m ≠ i ∧ l[m]? = some r := by
  induction l generalizing i with
  | nil => simp at h
  | cons a l ih =>
    cases i with
    | zero =>
      simp only [List.eraseIdx_cons_zero] at h
      obtain ⟨m, hm⟩ := List.mem_iff_getElem?.mp h
      exact ⟨m + 1, by omega, by simpa using hm⟩
    | succ i =>
      simp only [List.eraseIdx_cons_succ, List.mem_cons] at h
      rcases h with rfl | h
      · exact ⟨0, by omega, rfl⟩
      · obtain ⟨m, h1, h2⟩ := ih h
        exact ⟨m + 1, by omega, by simpa using h2⟩

theorem sortPoints_spec (pos : R → K × K) (depth : ℕ) (l : List R) (id : ℕ) (p : R) (hp : l[id]? = some p) (hd : l.length ≤ depth) :
    ∃ o, sortPoints pos depth l id = some (p :: o) ∧ (p :: o).Perm l ∧ NearestNext pos l (p :: o) := by
  induction depth generalizing l id p with
  | zero =>
    have : l = [] := List.length_eq_zero_iff.mp (by omega)
    subst this
    simp at hp
  | succ n ih =>
    have P := perm_eraseIdx hp
    have len : (l.eraseIdx id).length + 1 = l.length := by simpa using P.length_eq
    by_cases he : l.eraseIdx id = []
    · refine ⟨[], ?_, by rw [he] at P; exact P, ?_⟩
      · rw [sortPoints, hp]; simp [he, nearestFrom]
      · intro pre a b post h
        have := congrArg List.length h
        simp at this
        omega
    · obtain ⟨j, q, h1, h2, h3, h4⟩ := nearest_cons pos (pos p) _ he
      obtain ⟨o, ho, hperm, hn⟩ := ih (l.eraseIdx id) j q h2 (by omega)
      refine ⟨q :: o, ?_, (hperm.cons p).trans P, ?_⟩
      · rw [sortPoints, hp]; simp [h1, ho]
      · intro pre a b post h r hr
        cases pre with
        | nil =>
          simp only [List.nil_append, List.cons.injEq] at h
          obtain ⟨rfl, rfl, rfl⟩ := h
          have hm : r ∈ (l.eraseIdx id).eraseIdx j := ((hperm.trans (perm_eraseIdx h2).symm).cons_inv).mem_iff.mp hr
          obtain ⟨m, hm1, hm2⟩ := mem_eraseIdx hm
          simp only [← dist2_eq]
          rcases Nat.lt_or_gt_of_ne hm1 with hlt | hgt
          · exact .inl (h4 m r hlt hm2)
          · rcases (h3 m r hm2).lt_or_eq with h5 | h5
            · exact .inl h5
            · exact .inr ⟨h5, (pair_sublist hgt h2 hm2).trans (List.eraseIdx_sublist ..)⟩
        | cons c pre =>
          simp only [List.cons_append, List.cons.injEq] at h
          rcases hn pre a b post h.2 r hr with h5 | ⟨h5, h6⟩
          · exact .inl h5
          · exact .inr ⟨h5, h6.trans (List.eraseIdx_sublist ..)⟩

theorem sortPoints_deep (pos : R → K × K) (depth : ℕ) (l : List R) (id : ℕ) (hd : depth < l.length) : sortPoints pos depth l id = none := by
  induction depth generalizing l id with
  | zero => rfl
  | succ n ih =>
    rw [sortPoints]
    cases hp : l[id]? with
    | none => rfl
    | some p =>
      have len : (l.eraseIdx id).length + 1 = l.length := by simpa using (perm_eraseIdx hp).length_eq
      have he : l.eraseIdx id ≠ [] := by intro e; rw [e] at len; simp at len; omega
      obtain ⟨j, q, h1, -⟩ := nearest_cons pos (pos p) _ he
      simp [h1, ih (l.eraseIdx id) j (by omega)]

/-- C118. Points come out in another order only: the first one stays the first, and every other one is the nearest of those left. -/
theorem C118_order (pos : R → K × K) (depth : ℕ) (p : R) (data : List R) (hd : data.length + 1 ≤ depth) :
    ∃ o, orderBoundary pos depth (p :: data) = some (p :: o) ∧ (p :: o).Perm (p :: data) ∧ NearestNext pos (p :: data) (p :: o) :=
  sortPoints_spec pos depth (p :: data) 0 p rfl (by simpa using hd)

/-- C118. A file without points and a file with more points than calls are allowed are refused. -/
theorem C118_refused (pos : R → K × K) (depth : ℕ) (data : List R) (h : data = [] ∨ depth < data.length) : orderBoundary pos depth data = none := by
  rcases h with rfl | h
  · cases depth <;> rfl
  · exact sortPoints_deep pos depth data 0 h

end Verif.Lib
