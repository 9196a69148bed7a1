import Verif.ParGhost.LemmasCount

/-! # Two processors, step by step -/

namespace Verif.ParGhost

variable {V T σ : Type}

/-- Two processors which exchange ghosts. -/
structure Pair (c : Sys V T σ) : Prop where
  two : c.m = 2
  s0 : c.sends 0 = [1]
  s1 : c.sends 1 = [0]
  r0 : c.recvs 0 = [1]
  r1 : c.recvs 1 = [0]

theorem Pair.fits {c : Sys V T σ} (h : Pair c) : Fits c where
  fits p q hp := by
    rw [h.two] at hp ⊢
    obtain rfl | rfl : p = 0 ∨ p = 1 := by omega
    · rw [h.s0]
      constructor
      · intro hq
        simp only [List.mem_singleton] at hq
        subst hq
        exact ⟨by omega, by simp [h.r1]⟩
      · rintro ⟨hq, hr⟩
        obtain rfl | rfl : q = 0 ∨ q = 1 := by omega
        · simp [h.r0] at hr
        · simp
    · rw [h.s1]
      constructor
      · intro hq
        simp only [List.mem_singleton] at hq
        subst hq
        exact ⟨by omega, by simp [h.r0]⟩
      · rintro ⟨hq, hr⟩
        obtain rfl | rfl : q = 0 ∨ q = 1 := by omega
        · simp
        · simp [h.r1] at hr
  known p q hp hq := by
    rw [h.two] at hp ⊢
    obtain rfl | rfl : p = 0 ∨ p = 1 := by omega
    · simp [h.r0] at hq; omega
    · simp [h.r1] at hq; omega

/-- Both have done `r` exchanges in step, and no later message is on its way. -/
structure Level (c : Sys V T σ) (mem : ℕ → σ) (r : ℕ) (s : St V T σ) : Prop where
  rounds : s.round 0 = r ∧ s.round 1 = r
  idle : s.waiting 0 = false ∧ s.waiting 1 = false
  mems : s.mem 0 = together c mem r 0 ∧ s.mem 1 = together c mem r 1
  marks : 0 < r → s.mark 0 (r - 1) = c.give 0 (together c mem r 0) ∧ s.mark 1 (r - 1) = c.give 1 (together c mem r 1)
  fresh : ∀ r', r ≤ r' → s.copied 0 1 r' = none ∧ s.copied 1 0 r' = none

theorem Level.enter {c : Sys V T σ} (hc : Pair c) {mem : ℕ → σ} {r : ℕ} {s : St V T σ} (h : Level c mem r s) :
    c.enter s 0 = here c mem r 0 ∧ c.enter s 1 = here c mem r 1 := by
  unfold Sys.enter here
  rw [h.rounds.1, h.rounds.2, h.mems.1, h.mems.2]
  by_cases h0 : r = 0
  · simp [h0]
  · have hm := h.marks (by omega)
    have : ((List.range c.m).map fun q => s.mark q (r - 1)) = (List.range c.m).map fun u => c.give u (together c mem r u) := by
      rw [hc.two]
      simp [List.range_succ, hm.1, hm.2]
    simp only [this]
    exact ⟨trivial, trivial⟩

theorem Level.all {c : Sys V T σ} (hc : Pair c) {mem : ℕ → σ} {r : ℕ} {s : St V T σ} (h : Level c mem r s) :
    ∀ q, q < c.m → r ≤ s.round q := by
  intro q hq
  rw [hc.two] at hq
  obtain rfl | rfl : q = 0 ∨ q = 1 := by omega
  · exact h.rounds.1.ge
  · exact h.rounds.2.ge

theorem Exec.append {c : Sys V T σ} {R t t' : ℕ} {a b d : St V T σ} (h : Exec c R t a b) (e : Exec c R t' b d) :
    Exec c R (t + t') a d := by
  induction e with
  | refl => exact h
  | step _ st ih => exact (ih h).step st

theorem Level.next {c : Sys V T σ} (hc : Pair c) (hw : c.waitSends = false) {R : ℕ} {mem : ℕ → σ} {r : ℕ} {s : St V T σ} (h : Level c mem r s) (hr : r < R) :
    ∃ t s', Exec c R t s s' ∧ Level c mem (r + 1) s' := by
  obtain ⟨n0, n1⟩ := h.enter hc
  have hall := h.all hc
  have h2 := hc.two
  obtain ⟨a0, a1⟩ := h.rounds
  obtain ⟨w0, w1⟩ := h.idle
  obtain ⟨f0, f1⟩ := h.fresh r le_rfl
  have e1 := (Exec.refl (c := c) (R := R) s).step (Step.begin _ 0 (by omega) w0 (by omega) (Or.inr (Or.inr (by rw [a0]; exact hall))))
  have e2 := e1.step (Step.begin _ 1 (by omega) (by simpa using w1) (by simp only; omega) (Or.inr (Or.inr (by simp only [a1]; exact hall))))
  have e3 := e2.step (Step.copy _ 1 0 r (by omega) (by simp [hc.s1]) (by simp [St.begun, a1]) (by simpa using f1))
  have e4 := e3.step (Step.copy _ 0 1 r (by omega) (by simp [hc.s0]) (by simp [St.begun, a0]) (by simpa using f0))
  have n1' : ∀ b : St V T σ, b.round 1 = s.round 1 → b.mem 1 = s.mem 1 → b.mark = s.mark → c.enter b 1 = here c mem r 1 := by
    intro b hb1 hb2 hb3
    rw [← n1]
    unfold Sys.enter
    rw [hb1, hb2, hb3]
  have e5 := e4.step (Step.deliver _ 1 0 (c.out 1 (here c mem r 1) 0) (by omega) (by simp) (by simp [hc.r0])
    (by simp [a0, hc.s1, n1']))
  have e6 := e5.step (Step.deliver _ 0 1 (c.out 0 (here c mem r 0) 1) (by omega) (by simp) (by simp [hc.r1])
    (by simp [a1, hc.s0, n0]))
  have e7 := e6.step (Step.finish _ 0 (by omega) (by simp) (by
    intro q
    by_cases e : q = 1
    · subst e; simp
    · simp [hc.r0, e]) (by simp [hw]))
  have e8 := e7.step (Step.finish _ 1 (by omega) (by simp) (by
    intro q
    by_cases e : q = 0
    · subst e; simp
    · simp [hc.r1, e]) (by simp [hw]))
  refine ⟨_, _, e8, ⟨?_, ?_, ?_, ?_, ?_⟩⟩
  · simp [a0, a1]
  · simp
  · simp [hc.r0, hc.r1, n0, n1', together_succ]
  · intro _
    simp [hc.r0, hc.r1, n0, n1', together_succ, a0, a1]
  · intro r' hr'
    have := h.fresh r' (by omega)
    have hne : r' ≠ r := by omega
    simp [this.1, this.2, hne]

theorem Level.reach {c : Sys V T σ} (hc : Pair c) (hw : c.waitSends = false) {R : ℕ} {mem : ℕ → σ} {buf slot : ℕ → ℕ → V}
    {mark : ℕ → ℕ → T} (r : ℕ) (hr : r ≤ R) : ∃ t s, Exec c R t (ParGhost.start mem buf slot mark) s ∧ Level c mem r s := by
  induction r with
  | zero =>
    exact ⟨0, _, .refl _, ⟨rfl, rfl⟩, ⟨rfl, rfl⟩, ⟨rfl, rfl⟩, fun h => absurd h (by omega), fun _ _ => ⟨rfl, rfl⟩⟩
  | succ r ih =>
    obtain ⟨t, s, he, hl⟩ := ih (by omega)
    obtain ⟨t', s', he', hl'⟩ := hl.next hc hw (by omega : r < R)
    exact ⟨t + t', s', he.append he', hl'⟩

/-- Processor 0 is an exchange ahead when its message is read from the buffer. -/
theorem Level.race {c : Sys V T σ} (hc : Pair c) (hw : c.waitSends = false) {R : ℕ} {mem : ℕ → σ} {r : ℕ} {s : St V T σ}
    (h : Level c mem r s) (hr : r + 1 < R) (hn : c.coll r = false) :
    ∃ t s', Exec c R t s s' ∧ s'.round 1 = r + 1 ∧ s'.waiting 1 = false ∧
      s'.mem 1 = c.next 1 (here c mem r 1) [c.out 0 (together c mem (r + 1) 0) 1] := by
  obtain ⟨n0, n1⟩ := h.enter hc
  have hall := h.all hc
  have h2 := hc.two
  obtain ⟨a0, a1⟩ := h.rounds
  obtain ⟨w0, w1⟩ := h.idle
  obtain ⟨f0, f1⟩ := h.fresh r le_rfl
  have n1' : ∀ b : St V T σ, b.round 1 = s.round 1 → b.mem 1 = s.mem 1 → b.mark = s.mark → c.enter b 1 = here c mem r 1 := by
    intro b hb1 hb2 hb3
    rw [← n1]
    unfold Sys.enter
    rw [hb1, hb2, hb3]
  have e1 := (Exec.refl (c := c) (R := R) s).step (Step.begin _ 0 (by omega) w0 (by omega) (Or.inr (Or.inr (by rw [a0]; exact hall))))
  have e2 := e1.step (Step.begin _ 1 (by omega) (by simpa using w1) (by simp only; omega) (Or.inr (Or.inr (by simp only [a1]; exact hall))))
  have e3 := e2.step (Step.copy _ 1 0 r (by omega) (by simp [hc.s1]) (by simp [St.begun, a1]) (by simpa using f1))
  have e4 := e3.step (Step.deliver _ 1 0 (c.out 1 (here c mem r 1) 0) (by omega) (by simp) (by simp [hc.r0])
    (by simp [a0, hc.s1, n1']))
  have e5 := e4.step (Step.finish _ 0 (by omega) (by simp) (by
    intro q
    by_cases e : q = 1
    · subst e; simp
    · simp [hc.r0, e]) (by simp [hw]))
  have n0' : ∀ b : St V T σ, b.round 0 = r + 1 → c.enter b 0 = b.mem 0 := by
    intro b hb
    simp [Sys.enter, hb, hn]
  have e6 := e5.step (Step.begin _ 0 (by omega) (by simp) (by simp [a0]; omega) (Or.inr (Or.inl (by simpa [a0] using hn))))
  have e7 := e6.step (Step.copy _ 0 1 r (by omega) (by simp [hc.s0]) (by simp [St.begun, a0]; omega) (by simpa using f0))
  have e8 := e7.step (Step.deliver _ 0 1 (c.out 0 (together c mem (r + 1) 0) 1) (by omega) (by simp) (by simp [hc.r1])
    (by simp [a0, a1, hc.s0, hc.r0, n0, n1', n0', together_succ]))
  have e9 := e8.step (Step.finish _ 1 (by omega) (by simp) (by
    intro q
    by_cases e : q = 0
    · subst e; simp
    · simp [hc.r1, e]) (by simp [hw]))
  exact ⟨_, _, e9, by simp [a1], by simp, by simp [hc.r1, n1']⟩

end Verif.ParGhost
