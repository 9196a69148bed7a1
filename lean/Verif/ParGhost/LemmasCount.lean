import Verif.ParGhost.Lemmas
import Mathlib.Algebra.BigOperators.Group.Finset.Basic
import Mathlib.Algebra.Order.BigOperators.Group.Finset

/-! # Steps are counted -/

namespace Verif.ParGhost

variable {V T σ : Type}

/-- Messages waited for are expected; no processor does more than `R` exchanges. -/
structure Base (c : Sys V T σ) (R : ℕ) (s : St V T σ) : Prop where
  pend : ∀ p, p < c.m → s.waiting p = true → ∀ q, s.pending p q = true → q ∈ c.recvs p
  bound : ∀ p, p < c.m → s.round p ≤ R ∧ (s.waiting p = true → s.round p < R)

theorem Base.start (c : Sys V T σ) (R : ℕ) (mem : ℕ → σ) (buf slot : ℕ → ℕ → V) (mark : ℕ → ℕ → T) :
    Base c R (start mem buf slot mark) :=
  ⟨(Inv.start c R mem buf slot mark).pend, (Inv.start c R mem buf slot mark).bound⟩

theorem Base.step {c : Sys V T σ} {R : ℕ} {s s' : St V T σ} (h : Base c R s) (hstep : Step c R s s') : Base c R s' := by
  cases hstep with
  | begin p hp hw hR hb =>
    refine ⟨fun p' hp' hw' q hq => ?_, fun p' hp' => ?_⟩ <;> by_cases e : p' = p
    · subst e
      simpa using hq
    · simp only [Function.update_of_ne e] at hw' hq
      exact h.pend p' hp' hw' q hq
    · subst e
      exact ⟨(h.bound p' hp).1, fun _ => hR⟩
    · simp only [Function.update_of_ne e]
      exact h.bound p' hp'
  | copy => exact ⟨h.pend, h.bound⟩
  | deliver p q v hq hw hpd hc =>
    refine ⟨fun p' hp' hw' q' hq' => ?_, h.bound⟩
    by_cases e : p' = q
    · subst e
      by_cases e' : q' = p
      · subst e'
        exact h.pend p' hp' hw q' hpd
      · simp only [Function.update_self, Function.update_of_ne e'] at hq'
        exact h.pend p' hp' hw q' hq'
    · simp only [Function.update_of_ne e] at hq'
      exact h.pend p' hp' hw' q' hq'
  | finish p hp hw hd hsnd =>
    refine ⟨fun p' hp' hw' q hq => ?_, fun p' hp' => ?_⟩ <;> by_cases e : p' = p
    · subst e
      simp at hw'
    · simp only [Function.update_of_ne e] at hw'
      exact h.pend p' hp' hw' q hq
    · subst e
      have := (h.bound p' hp).2 hw
      simp only [Function.update_self]
      exact ⟨this, fun h => by simp at h⟩
    · simp only [Function.update_of_ne e]
      exact h.bound p' hp'

theorem Base.exec {c : Sys V T σ} {R t : ℕ} {s s' : St V T σ} (h : Base c R s) (he : Exec c R t s s') : Base c R s' := by
  induction he with
  | refl => exact h
  | step _ st ih => exact (ih h).step st

theorem Exec.cons {c : Sys V T σ} {R t : ℕ} {a b d : St V T σ} (h : Step c R a b) (e : Exec c R t b d) : Exec c R (t + 1) a d := by
  induction e with
  | refl => exact (Exec.refl a).step h
  | step _ st ih => exact (ih h).step st

/-- Exchanges begun and finished. -/
def turns (c : Sys V T σ) (s : St V T σ) : ℕ := ∑ p ∈ Finset.range c.m, (2 * s.round p + if s.waiting p then 1 else 0)

/-- Messages that arrived. -/
def arrivals (c : Sys V T σ) (s : St V T σ) : ℕ :=
  ∑ q ∈ Finset.range c.m, ∑ p ∈ (c.recvs q).toFinset, (s.round q + if s.waiting q = true ∧ s.pending q p = false then 1 else 0)

/-- Messages read from their buffers. -/
def copies (c : Sys V T σ) (R : ℕ) (s : St V T σ) : ℕ :=
  ∑ p ∈ Finset.range c.m, ∑ q ∈ (c.sends p).toFinset, ∑ r ∈ Finset.range R, if (s.copied p q r).isSome then 1 else 0

/-- More steps than this are not possible. -/
def limit (c : Sys V T σ) (R : ℕ) : ℕ :=
  ∑ _p ∈ Finset.range c.m, (2 * R) + ∑ q ∈ Finset.range c.m, ∑ _p ∈ (c.recvs q).toFinset, R +
    ∑ p ∈ Finset.range c.m, ∑ _q ∈ (c.sends p).toFinset, R

theorem sum_bump {ι : Type} [DecidableEq ι] (S : Finset ι) (f g : ι → ℕ) (i : ι) (hi : i ∈ S) (hb : g i = f i + 1)
    (hr : ∀ j ∈ S, j ≠ i → g j = f j) : ∑ j ∈ S, g j = ∑ j ∈ S, f j + 1 := by
  have h1 := Finset.add_sum_erase S g hi
  have h2 := Finset.add_sum_erase S f hi
  have h3 : ∑ j ∈ S.erase i, g j = ∑ j ∈ S.erase i, f j :=
    Finset.sum_congr rfl fun j hj => hr j (Finset.mem_of_mem_erase hj) (Finset.ne_of_mem_erase hj)
  omega

theorem count_step {c : Sys V T σ} {R : ℕ} {s s' : St V T σ} (h : Base c R s)
    (hstep : Step c R s s') :
    turns c s' + arrivals c s' + copies c R s' = turns c s + arrivals c s + copies c R s + 1 := by
  cases hstep with
  | begin p hp hw hR hb =>
    have h1 := sum_bump (Finset.range c.m) (fun x => 2 * s.round x + if s.waiting x then 1 else 0)
      (fun x => 2 * s.round x + if (Function.update s.waiting p true) x then 1 else 0) p (Finset.mem_range.2 hp)
      (by simp [hw]) fun j _ hj => by simp only [Function.update_of_ne hj]
    have h2 : arrivals c { s with
        mem := Function.update s.mem p (c.enter s p)
        waiting := Function.update s.waiting p true
        buf := Function.update s.buf p fun q => if q ∈ c.sends p then c.out p (c.enter s p) q else s.buf p q
        pending := Function.update s.pending p fun q => decide (q ∈ c.recvs p) } = arrivals c s := by
      refine Finset.sum_congr rfl fun q _ => Finset.sum_congr rfl fun p' hp' => ?_
      by_cases e : q = p
      · subst e
        have : p' ∈ c.recvs q := by simpa using hp'
        simp [hw, this]
      · simp only [Function.update_of_ne e]
    rw [h2]
    have h3 := h1
    unfold turns copies at *
    simp only at h3 ⊢
    omega
  | copy p q r hp hq hr hn =>
    have hrR : r < R := by
      have := h.bound p hp
      unfold St.begun at hr
      by_cases hw : s.waiting p = true
      · rw [if_pos hw] at hr
        have := this.2 hw
        omega
      · rw [if_neg hw] at hr
        omega
    have h3 : copies c R { s with copied := fun p' q' r' => if p' = p ∧ q' = q ∧ r' = r then some (s.buf p q) else s.copied p' q' r' }
        = copies c R s + 1 := by
      unfold copies
      refine sum_bump _ _ _ p (Finset.mem_range.2 hp) ?_ ?_
      · refine sum_bump _ _ _ q (by simpa using hq) ?_ ?_
        · refine sum_bump _ _ _ r (Finset.mem_range.2 hrR) ?_ ?_
          · simp [hn]
          · intro r' _ hr'
            simp [hr']
        · intro q' _ hq'
          exact Finset.sum_congr rfl fun r' _ => by simp [hq']
      · intro p' _ hp'
        exact Finset.sum_congr rfl fun q' _ => Finset.sum_congr rfl fun r' _ => by simp [hp']
    rw [h3]
    unfold turns arrivals
    simp only
    omega
  | deliver p q v hq hw hpd hc =>
    have hpr := h.pend q hq hw p hpd
    have h2 : arrivals c { s with
        slot := Function.update s.slot q (Function.update (s.slot q) p v)
        pending := Function.update s.pending q (Function.update (s.pending q) p false) } = arrivals c s + 1 := by
      unfold arrivals
      refine sum_bump _ _ _ q (Finset.mem_range.2 hq) ?_ ?_
      · refine sum_bump _ _ _ p (by simpa using hpr) ?_ ?_
        · simp [hw, hpd]
        · intro p' _ hp'
          simp only [Function.update_self, Function.update_of_ne hp']
      · intro q' _ hq'
        exact Finset.sum_congr rfl fun p' _ => by simp only [Function.update_of_ne hq']
    rw [h2]
    unfold turns copies
    simp only
    omega
  | finish p hp hw hd hsnd =>
    have h1 := sum_bump (Finset.range c.m) (fun x => 2 * s.round x + if s.waiting x then 1 else 0)
      (fun x => 2 * (Function.update s.round p (s.round p + 1)) x + if (Function.update s.waiting p false) x then 1 else 0) p
      (Finset.mem_range.2 hp) (by simp [hw]; omega) fun j _ hj => by simp only [Function.update_of_ne hj]
    have h2 : arrivals c { s with
        mem := Function.update s.mem p (c.next p (s.mem p) ((c.recvs p).map (s.slot p)))
        round := Function.update s.round p (s.round p + 1)
        waiting := Function.update s.waiting p false
        mark := Function.update s.mark p
          (Function.update (s.mark p) (s.round p) (c.give p (c.next p (s.mem p) ((c.recvs p).map (s.slot p))))) } = arrivals c s := by
      refine Finset.sum_congr rfl fun q _ => Finset.sum_congr rfl fun p' hp' => ?_
      by_cases e : q = p
      · subst e
        simp [hw, hd p']
      · simp only [Function.update_of_ne e]
    rw [h2]
    unfold turns copies at *
    simp only at h1 ⊢
    omega

theorem count_le {c : Sys V T σ} {R : ℕ} {s : St V T σ} (h : Base c R s) :
    turns c s + arrivals c s + copies c R s ≤ limit c R := by
  have h1 : turns c s ≤ ∑ _p ∈ Finset.range c.m, (2 * R) := Finset.sum_le_sum fun p hp => by
    have := h.bound p (Finset.mem_range.1 hp)
    by_cases hw : s.waiting p = true
    · rw [if_pos hw]; have := this.2 hw; omega
    · rw [if_neg hw]; omega
  have h2 : arrivals c s ≤ ∑ q ∈ Finset.range c.m, ∑ _p ∈ (c.recvs q).toFinset, R := Finset.sum_le_sum fun q hq =>
    Finset.sum_le_sum fun p _ => by
      have := h.bound q (Finset.mem_range.1 hq)
      by_cases hw : s.waiting q = true ∧ s.pending q p = false
      · rw [if_pos hw]; exact this.2 hw.1
      · rw [if_neg hw]; omega
  have h3 : copies c R s ≤ ∑ p ∈ Finset.range c.m, ∑ _q ∈ (c.sends p).toFinset, R := Finset.sum_le_sum fun p _ =>
    Finset.sum_le_sum fun q _ => by
      refine (Finset.sum_le_sum (g := fun _ => 1) fun r _ => ?_).trans (by simp)
      split_ifs <;> omega
  unfold limit
  omega

theorem Exec.count {c : Sys V T σ} {R : ℕ} {t : ℕ} {s s' : St V T σ} (h : Base c R s)
    (he : Exec c R t s s') : turns c s' + arrivals c s' + copies c R s' = turns c s + arrivals c s + copies c R s + t := by
  induction he with
  | refl => rfl
  | step e st ih =>
    rw [count_step (h.exec e) st, ih h]
    omega

end Verif.ParGhost
