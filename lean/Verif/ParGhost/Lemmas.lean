import Verif.ParGhost.Spec

/-! # The invariant of exchanges -/

namespace Verif.ParGhost

variable {V T σ : Type}

theorem together_succ (c : Sys V T σ) (mem : ℕ → σ) (r p : ℕ) :
    together c mem (r + 1) p = c.next p (here c mem r p) ((c.recvs p).map fun q => c.out q (here c mem r q) p) := rfl

structure Inv (c : Sys V T σ) (R : ℕ) (mem : ℕ → σ) (s : St V T σ) : Prop where
  idle : ∀ p, p < c.m → s.waiting p = false → s.mem p = together c mem (s.round p) p
  busy : ∀ p, p < c.m → s.waiting p = true → s.mem p = here c mem (s.round p) p
  marks : ∀ p, p < c.m → ∀ r, r < s.round p → s.mark p r = c.give p (together c mem (r + 1) p)
  buf : ∀ p, p < c.m → ∀ q ∈ c.sends p, ∀ r, s.begun p = r + 1 → s.buf p q = c.out p (here c mem r p) q
  copied : ∀ p, p < c.m → ∀ q ∈ c.sends p, ∀ r v, s.copied p q r = some v → r < s.begun p ∧ v = c.out p (here c mem r p) q
  old : ∀ p, p < c.m → ∀ q ∈ c.sends p, ∀ r, r + 1 < s.begun p → s.copied p q r ≠ none
  sent : ∀ p, p < c.m → ∀ q ∈ c.sends p, ∀ r, r < s.round q → s.copied p q r ≠ none
  got : ∀ q, q < c.m → s.waiting q = true → ∀ p ∈ c.recvs q, s.pending q p = false →
    s.copied p q (s.round q) ≠ none ∧ s.slot q p = c.out p (here c mem (s.round q) p) q
  pend : ∀ p, p < c.m → s.waiting p = true → ∀ q, s.pending p q = true → q ∈ c.recvs p
  flushed : c.waitSends = true → ∀ p, p < c.m → s.waiting p = false → ∀ q ∈ c.sends p, ∀ r, r < s.round p → s.copied p q r ≠ none
  bound : ∀ p, p < c.m → s.round p ≤ R ∧ (s.waiting p = true → s.round p < R)

theorem Inv.start (c : Sys V T σ) (R : ℕ) (mem : ℕ → σ) (buf slot : ℕ → ℕ → V) (mark : ℕ → ℕ → T) :
    Inv c R mem (start mem buf slot mark) where
  idle _ _ _ := rfl
  busy _ _ h := absurd h (by simp [ParGhost.start])
  marks _ _ r h := absurd h (by simp [ParGhost.start])
  buf p _ q _ r h := by simp [ParGhost.start, St.begun] at h
  copied _ _ _ _ _ _ h := by simp [ParGhost.start] at h
  old _ _ _ _ _ h := by simp [ParGhost.start, St.begun] at h
  sent _ _ _ _ _ h := by simp [ParGhost.start] at h
  got _ _ h := by simp [ParGhost.start] at h
  pend _ _ h := by simp [ParGhost.start] at h
  flushed _ _ _ _ _ _ _ h := by simp [ParGhost.start] at h
  bound p _ := ⟨by simp [ParGhost.start], fun h => by simp [ParGhost.start] at h⟩

theorem Inv.step {c : Sys V T σ} (hf : Fits c) {R : ℕ} (hs : Safe c R) {mem : ℕ → σ} {s s' : St V T σ} (h : Inv c R mem s)
    (hstep : Step c R s s') : Inv c R mem s' := by
  cases hstep with
  | begin p hp hw hR hb =>
    have hent : c.enter s p = here c mem (s.round p) p := by
      unfold Sys.enter here
      rw [h.idle p hp hw]
      by_cases h0 : s.round p = 0
      · rw [if_pos h0, if_pos h0]
      · rw [if_neg h0, if_neg h0]
        by_cases hc : c.coll (s.round p - 1) = true
        · rw [if_pos hc, if_pos hc]
          congr 1
          refine List.map_congr_left fun q hq => ?_
          have hq' : q < c.m := List.mem_range.1 hq
          have hge : s.round p ≤ s.round q := by
            rcases hb with hb | hb | hb
            · exact absurd hb h0
            · rw [hb] at hc; exact absurd hc (by simp)
            · exact hb q hq'
          rw [h.marks q hq' (s.round p - 1) (by omega), Nat.sub_add_cancel (by omega)]
        · rw [if_neg hc, if_neg hc]
    have hold : ∀ q ∈ c.sends p, ∀ r, r < s.round p → s.copied p q r ≠ none := by
      intro q hq r hr
      rcases hs with hs | hs
      · exact h.flushed hs p hp hw q hq r hr
      · have hge : s.round p ≤ s.round q := by
          rcases hb with hb | hb | hb
          · omega
          · rw [hs _ (by omega)] at hb; exact absurd hb (by simp)
          · exact hb q ((hf.fits p q hp).1 hq).1
        exact h.sent p hp q hq r (by omega)
    constructor
    · intro p' hp' hw'
      by_cases e : p' = p
      · subst e; simp at hw'
      · simp only [Function.update_of_ne e] at hw' ⊢
        exact h.idle p' hp' hw'
    · intro p' hp' hw'
      by_cases e : p' = p
      · subst e; simp only [Function.update_self]; exact hent
      · simp only [Function.update_of_ne e] at hw' ⊢
        exact h.busy p' hp' hw'
    · exact h.marks
    · intro p' hp' q hq r hr
      by_cases e : p' = p
      · subst e
        simp only [St.begun, Function.update_self, if_true, Nat.add_right_cancel_iff] at hr ⊢
        rw [if_pos hq, hent, hr]
      · simp only [St.begun, Function.update_of_ne e] at hr ⊢
        exact h.buf p' hp' q hq r hr
    · intro p' hp' q hq r v hv
      obtain ⟨h1, h2⟩ := h.copied p' hp' q hq r v hv
      refine ⟨?_, h2⟩
      by_cases e : p' = p
      · subst e
        simp only [St.begun, hw, Bool.false_eq_true, if_false, Nat.add_zero, Function.update_self, if_true] at h1 ⊢
        omega
      · simp only [St.begun, Function.update_of_ne e] at h1 ⊢
        exact h1
    · intro p' hp' q hq r hr
      by_cases e : p' = p
      · subst e
        simp only [St.begun, Function.update_self, if_true] at hr
        exact hold q hq r (by omega)
      · simp only [St.begun, Function.update_of_ne e] at hr
        exact h.old p' hp' q hq r hr
    · exact h.sent
    · intro q hq hwq p' hp' hpd
      by_cases e : q = p
      · subst e
        simp only [Function.update_self, decide_eq_false_iff_not] at hpd
        exact absurd hp' hpd
      · simp only [Function.update_of_ne e] at hwq hpd
        exact h.got q hq hwq p' hp' hpd
    · intro p' hp' hw' q hpd
      by_cases e : p' = p
      · subst e
        simpa only [Function.update_self, decide_eq_true_eq] using hpd
      · simp only [Function.update_of_ne e] at hw' hpd
        exact h.pend p' hp' hw' q hpd
    · intro hws p' hp' hw'
      by_cases e : p' = p
      · subst e; simp at hw'
      · simp only [Function.update_of_ne e] at hw'
        exact h.flushed hws p' hp' hw'
    · intro p' hp'
      refine ⟨(h.bound p' hp').1, fun hw' => ?_⟩
      by_cases e : p' = p
      · subst e; exact hR
      · simp only [Function.update_of_ne e] at hw'
        exact (h.bound p' hp').2 hw'
  | copy p q r hp hq hr hn =>
    have hbuf : s.buf p q = c.out p (here c mem r p) q := by
      rcases Nat.lt_or_ge (r + 1) (s.begun p) with h1 | h1
      · exact absurd hn (h.old p hp q hq r h1)
      · exact h.buf p hp q hq r (by omega)
    have hmono : ∀ p' q' r', s.copied p' q' r' ≠ none →
        (if p' = p ∧ q' = q ∧ r' = r then some (s.buf p q) else s.copied p' q' r') ≠ none := by
      intro p' q' r' h0
      by_cases e : p' = p ∧ q' = q ∧ r' = r
      · rw [if_pos e]; simp
      · rw [if_neg e]; exact h0
    constructor
    · exact h.idle
    · exact h.busy
    · exact h.marks
    · exact h.buf
    · intro p' hp' q' hq' r' v hv
      simp only at hv
      by_cases e : p' = p ∧ q' = q ∧ r' = r
      · rw [if_pos e] at hv
        obtain ⟨rfl, rfl, rfl⟩ := e
        refine ⟨hr, ?_⟩
        rw [← hbuf]
        exact (Option.some.inj hv).symm
      · rw [if_neg e] at hv
        exact h.copied p' hp' q' hq' r' v hv
    · intro p' hp' q' hq' r' hr'
      exact hmono _ _ _ (h.old p' hp' q' hq' r' hr')
    · intro p' hp' q' hq' r' hr'
      exact hmono _ _ _ (h.sent p' hp' q' hq' r' hr')
    · intro q' hq' hw' p' hp' hpd
      obtain ⟨h1, h2⟩ := h.got q' hq' hw' p' hp' hpd
      exact ⟨hmono _ _ _ h1, h2⟩
    · exact h.pend
    · intro hws p' hp' hw' q' hq' r' hr'
      exact hmono _ _ _ (h.flushed hws p' hp' hw' q' hq' r' hr')
    · exact h.bound
  | deliver p q v hq hw hpd hc =>
    have hpr := h.pend q hq hw p hpd
    have hpm := hf.known q p hq hpr
    have hsend : q ∈ c.sends p := (hf.fits p q hpm).2 ⟨hq, hpr⟩
    have hv := (h.copied p hpm q hsend _ v hc).2
    constructor
    · exact h.idle
    · exact h.busy
    · exact h.marks
    · exact h.buf
    · exact h.copied
    · exact h.old
    · exact h.sent
    · intro q' hq' hw' p' hp' hpd'
      by_cases e : q' = q
      · subst e
        simp only [Function.update_self] at hpd' ⊢
        by_cases e' : p' = p
        · subst e'
          simp only [Function.update_self]
          exact ⟨by rw [hc]; simp, hv⟩
        · simp only [Function.update_of_ne e'] at hpd' ⊢
          exact h.got q' hq' hw' p' hp' hpd'
      · simp only [Function.update_of_ne e] at hpd' ⊢
        exact h.got q' hq' hw' p' hp' hpd'
    · intro p' hp' hw' q' hpd'
      by_cases e : p' = q
      · subst e
        simp only [Function.update_self] at hpd'
        by_cases e' : q' = p
        · subst e'; exact hpr
        · simp only [Function.update_of_ne e'] at hpd'
          exact h.pend p' hp' hw' q' hpd'
      · simp only [Function.update_of_ne e] at hpd'
        exact h.pend p' hp' hw' q' hpd'
    · exact h.flushed
    · exact h.bound
  | finish p hp hw hd hsnd =>
    have hmem : c.next p (s.mem p) ((c.recvs p).map (s.slot p)) = together c mem (s.round p + 1) p := by
      rw [together_succ, h.busy p hp hw]
      congr 1
      exact List.map_congr_left fun q hq => (h.got p hp hw q hq (hd q)).2
    have hbeg : ∀ p', (St.begun { s with
        mem := Function.update s.mem p (c.next p (s.mem p) ((c.recvs p).map (s.slot p)))
        round := Function.update s.round p (s.round p + 1)
        waiting := Function.update s.waiting p false
        mark := Function.update s.mark p
          (Function.update (s.mark p) (s.round p) (c.give p (c.next p (s.mem p) ((c.recvs p).map (s.slot p))))) } p') = s.begun p' := by
      intro p'
      by_cases e : p' = p
      · subst e; simp [St.begun, hw]
      · simp only [St.begun, Function.update_of_ne e]
    have hb1 : s.begun p = s.round p + 1 := by simp [St.begun, hw]
    constructor
    · intro p' hp' hw'
      by_cases e : p' = p
      · subst e; simp only [Function.update_self]; exact hmem
      · simp only [Function.update_of_ne e] at hw' ⊢
        exact h.idle p' hp' hw'
    · intro p' hp' hw'
      by_cases e : p' = p
      · subst e; simp at hw'
      · simp only [Function.update_of_ne e] at hw' ⊢
        exact h.busy p' hp' hw'
    · intro p' hp' r hr
      by_cases e : p' = p
      · subst e
        simp only [Function.update_self] at hr ⊢
        by_cases e' : r = s.round p'
        · subst e'; rw [Function.update_self, hmem]
        · rw [Function.update_of_ne e']
          exact h.marks p' hp' r (by omega)
      · simp only [Function.update_of_ne e] at hr ⊢
        exact h.marks p' hp' r hr
    · intro p' hp' q hq r hr
      rw [hbeg] at hr
      exact h.buf p' hp' q hq r hr
    · intro p' hp' q hq r v hv
      rw [hbeg]
      exact h.copied p' hp' q hq r v hv
    · intro p' hp' q hq r hr
      rw [hbeg] at hr
      exact h.old p' hp' q hq r hr
    · intro p' hp' q hq r hr
      by_cases e : q = p
      · subst e
        simp only [Function.update_self] at hr
        rcases Nat.lt_succ_iff_lt_or_eq.1 hr with h1 | h1
        · exact h.sent p' hp' q hq r h1
        · subst h1
          exact (h.got q hp hw p' ((hf.fits p' q hp').1 hq).2 (hd p')).1
      · simp only [Function.update_of_ne e] at hr
        exact h.sent p' hp' q hq r hr
    · intro q hq hwq p' hp' hpd
      by_cases e : q = p
      · subst e; simp at hwq
      · simp only [Function.update_of_ne e] at hwq ⊢
        exact h.got q hq hwq p' hp' hpd
    · intro p' hp' hw' q hpd
      by_cases e : p' = p
      · subst e; simp at hw'
      · simp only [Function.update_of_ne e] at hw'
        exact h.pend p' hp' hw' q hpd
    · intro hws p' hp' hw' q hq r hr
      by_cases e : p' = p
      · subst e
        simp only [Function.update_self] at hr
        exact hsnd hws q hq r (by omega)
      · simp only [Function.update_of_ne e] at hw' hr
        exact h.flushed hws p' hp' hw' q hq r hr
    · intro p' hp'
      by_cases e : p' = p
      · subst e
        simp only [Function.update_self]
        exact ⟨(h.bound p' hp').2 hw, fun h0 => absurd h0 (by simp)⟩
      · simp only [Function.update_of_ne e]
        exact h.bound p' hp'

theorem Inv.exec {c : Sys V T σ} (hf : Fits c) {R : ℕ} (hs : Safe c R) {mem : ℕ → σ} {t : ℕ} {s s' : St V T σ} (h : Inv c R mem s)
    (he : Exec c R t s s') : Inv c R mem s' := by
  induction he with
  | refl => exact h
  | step _ st ih => exact (ih h).step hf hs st

end Verif.ParGhost
