import Verif.Basic
import Mathlib.Logic.Function.Basic
import Mathlib.Logic.Relation

/-!
# Processors which exchange messages

The programs of the processors, and all executions of them together. `/repo/anuga/utilities/parallel_abstraction.py` 177-200, 233-240:
`pypar.send(x, p)` and `pypar.receive(p)` are blocking messages between two processors without tags.

A message may be handed over when the receiver waits for it, or it may be stored on the way, as the system likes; messages from
one processor to another arrive in the order in which they were sent. A program which has failed (an exception) does nothing more.
-/

namespace Verif.ParStruct

/-- A program which returns a value of type `α` and exchanges values of type `V`. -/
inductive Prog (V : Type) (α : Type) : Type
  | done (a : α)
  | send (dst : ℕ) (v : V) (k : Prog V α)
  | recv (src : ℕ) (k : V → Prog V α)
  | fail

variable {V α β γ : Type}

/-- One program after another. -/
def Prog.bind : Prog V α → (α → Prog V β) → Prog V β
  | .done a, f => f a
  | .send q v k, f => .send q v (k.bind f)
  | .recv p k, f => .recv p fun v => (k v).bind f
  | .fail, _ => .fail

instance : Monad (Prog V) where
  pure := .done
  bind := .bind

theorem Prog.bind_assoc (x : Prog V α) (f : α → Prog V β) (g : β → Prog V γ) : (x.bind f).bind g = x.bind fun a => (f a).bind g := by
  induction x with
  | done a => rfl
  | send q v k ih =>
    show Prog.send q v _ = Prog.send q v _
    rw [ih]
  | recv p k ih =>
    show Prog.recv p _ = Prog.recv p _
    congr 1
    funext v
    exact ih v
  | fail => rfl

theorem Prog.bind_done (x : Prog V α) : x.bind .done = x := by
  induction x with
  | done a => rfl
  | send q v k ih =>
    show Prog.send q v _ = Prog.send q v _
    rw [ih]
  | recv p k ih =>
    show Prog.recv p _ = Prog.recv p _
    congr 1
    funext v
    exact ih v
  | fail => rfl

/-- What all processors have still to do, and the messages on the way from one processor to another. -/
structure Net (V α : Type) where
  prog : ℕ → Prog V α
  chan : ℕ × ℕ → List V

/-- A step for which nothing has to be stored, with its weight: a message is handed over, or a stored message is received. -/
inductive Step : ℕ → Net V α → Net V α → Prop
  | meet {n : Net V α} {p q : ℕ} {v : V} {k : Prog V α} {r : V → Prog V α} (hp : n.prog p = .send q v k) (hq : n.prog q = .recv p r)
      (he : n.chan (p, q) = []) : Step 2 n ⟨Function.update (Function.update n.prog p k) q (r v), n.chan⟩
  | take {n : Net V α} {p q : ℕ} {v : V} {l : List V} {r : V → Prog V α} (hq : n.prog q = .recv p r) (hc : n.chan (p, q) = v :: l) :
      Step 1 n ⟨Function.update n.prog q (r v), Function.update n.chan (p, q) l⟩

/-- A message is stored on its way; whether this is possible is up to the system. -/
inductive Store : Net V α → Net V α → Prop
  | store {n : Net V α} {p q : ℕ} {v : V} {k : Prog V α} (hp : n.prog p = .send q v k) :
      Store n ⟨Function.update n.prog p k, Function.update n.chan (p, q) (n.chan (p, q) ++ [v])⟩

/-- Steps without storing one after another, with their weight. -/
inductive Run : ℕ → Net V α → Net V α → Prop
  | refl (n : Net V α) : Run 0 n n
  | step {u w : ℕ} {a b c : Net V α} : Step u a b → Run w b c → Run (u + w) a c

/-- Any execution, with the number of its steps. -/
inductive Exec : ℕ → Net V α → Net V α → Prop
  | refl (n : Net V α) : Exec 0 n n
  | step {u w : ℕ} {a b c : Net V α} : Step u a b → Exec w b c → Exec (w + 1) a c
  | store {w : ℕ} {a b c : Net V α} : Store a b → Exec w b c → Exec (w + 1) a c

theorem Run.trans {u w : ℕ} {a b c : Net V α} (h : Run u a b) (h' : Run w b c) : Run (u + w) a c := by
  induction h with
  | refl => rwa [Nat.zero_add]
  | step s _ ih =>
    rw [Nat.add_assoc]
    exact .step s (ih h')

/-- Two different steps can be made one after the other. -/
theorem Step.diamond {u w : ℕ} {n a b : Net V α} (ha : Step u n a) (hb : Step w n b) :
    (a = b ∧ u = w) ∨ ∃ c, Step w a c ∧ Step u b c := by
  cases ha with
  | @meet _ p q v k r hp hq he =>
    have hpq : p ≠ q := fun h => by rw [h, hq] at hp; exact absurd hp (by simp)
    cases hb with
    | @meet _ p' q' v' k' r' hp' hq' he' =>
      by_cases h1 : p = p'
      · subst h1
        rw [hp] at hp'
        injection hp' with e1 e2 e3
        subst e1 e2 e3
        rw [hq] at hq'
        injection hq' with _ e4
        subst e4
        exact Or.inl ⟨rfl, rfl⟩
      · right
        have hqq : q ≠ q' := fun h => by
          subst h
          rw [hq] at hq'
          injection hq' with e
          exact h1 e
        have hpq' : p ≠ q' := fun h => by rw [h, hq'] at hp; exact absurd hp (by simp)
        have hqp : q ≠ p' := fun h => by rw [h, hp'] at hq; exact absurd hq (by simp)
        have hpq2 : p' ≠ q' := fun h => by rw [h, hq'] at hp'; exact absurd hp' (by simp)
        refine ⟨⟨Function.update (Function.update (Function.update (Function.update n.prog p k) q (r v)) p' k') q' (r' v'), n.chan⟩,
          .meet (by simp [Function.update_of_ne hqp.symm, Function.update_of_ne (Ne.symm h1), hp'])
            (by simp [Function.update_of_ne hqq.symm, Function.update_of_ne hpq'.symm, hq']) he', ?_⟩
        have e : Function.update (Function.update (Function.update (Function.update n.prog p k) q (r v)) p' k') q' (r' v')
            = Function.update (Function.update (Function.update (Function.update n.prog p' k') q' (r' v')) p k) q (r v) := by
          funext x
          simp only [Function.update_apply]
          split_ifs <;> simp_all
        rw [e]
        exact .meet (n := ⟨Function.update (Function.update n.prog p' k') q' (r' v'), n.chan⟩)
          (by simp [Function.update_of_ne hpq', Function.update_of_ne h1, hp])
          (by simp [Function.update_of_ne hqq, Function.update_of_ne hqp, hq]) he
    | @take _ p' q' v' l' r' hq' hc' =>
      right
      have hqq : q ≠ q' := fun h => by
        subst h
        rw [hq] at hq'
        injection hq' with e
        subst e
        rw [he] at hc'
        exact absurd hc' (by simp)
      have hpq' : p ≠ q' := fun h => by rw [h, hq'] at hp; exact absurd hp (by simp)
      have hpair : (p, q) ≠ (p', q') := fun h => hqq (congrArg Prod.snd h)
      refine ⟨⟨Function.update (Function.update (Function.update n.prog p k) q (r v)) q' (r' v'), Function.update n.chan (p', q') l'⟩,
        .take (by simp [Function.update_of_ne hqq.symm, Function.update_of_ne hpq'.symm, hq']) hc', ?_⟩
      have e : Function.update (Function.update (Function.update n.prog p k) q (r v)) q' (r' v')
          = Function.update (Function.update (Function.update n.prog q' (r' v')) p k) q (r v) := by
        funext x
        simp only [Function.update_apply]
        split_ifs <;> simp_all
      rw [e]
      exact .meet (n := ⟨Function.update n.prog q' (r' v'), Function.update n.chan (p', q') l'⟩)
        (by simp [Function.update_of_ne hpq', hp]) (by simp [Function.update_of_ne hqq, hq])
        (by simp [Function.update_of_ne hpair, he])
  | @take _ p q v l r hq hc =>
    cases hb with
    | @meet _ p' q' v' k' r' hp' hq' he' =>
      right
      have hqq : q ≠ q' := fun h => by
        subst h
        rw [hq] at hq'
        injection hq' with e
        subst e
        rw [he'] at hc
        exact absurd hc (by simp)
      have hpq' : p' ≠ q := fun h => by rw [h, hq] at hp'; exact absurd hp' (by simp)
      have hpair : (p', q') ≠ (p, q) := fun h => hqq (congrArg Prod.snd h).symm
      refine ⟨⟨Function.update (Function.update (Function.update n.prog p' k') q' (r' v')) q (r v), Function.update n.chan (p, q) l⟩, ?_,
        .take (by simp [Function.update_of_ne hqq, Function.update_of_ne hpq'.symm, hq]) hc⟩
      have e : Function.update (Function.update (Function.update n.prog p' k') q' (r' v')) q (r v)
          = Function.update (Function.update (Function.update n.prog q (r v)) p' k') q' (r' v') := by
        funext x
        simp only [Function.update_apply]
        split_ifs <;> simp_all
      rw [e]
      exact .meet (n := ⟨Function.update n.prog q (r v), Function.update n.chan (p, q) l⟩)
        (by simp [Function.update_of_ne hpq', hp']) (by simp [Function.update_of_ne hqq.symm, hq'])
        (by simp [Function.update_of_ne hpair, he'])
    | @take _ p' q' v' l' r' hq' hc' =>
      by_cases hqq : q = q'
      · subst hqq
        rw [hq] at hq'
        injection hq' with e1 e2
        subst e1 e2
        rw [hc] at hc'
        injection hc' with e3 e4
        subst e3 e4
        exact Or.inl ⟨rfl, rfl⟩
      · right
        have hpair : (p, q) ≠ (p', q') := fun h => hqq (congrArg Prod.snd h)
        refine ⟨⟨Function.update (Function.update n.prog q (r v)) q' (r' v'), Function.update (Function.update n.chan (p, q) l) (p', q') l'⟩,
          .take (by simp [Function.update_of_ne (Ne.symm hqq), hq']) (by simp [Function.update_of_ne hpair.symm, hc']), ?_⟩
        rw [Function.update_comm hqq, Function.update_comm hpair]
        exact .take (n := ⟨Function.update n.prog q' (r' v'), Function.update n.chan (p', q') l'⟩)
          (by simp [Function.update_of_ne hqq, hq]) (by simp [Function.update_of_ne hpair, hc])

/-- A message stored, and a step without storing: the step hands over that message, or both can be made one after the other. -/
theorem Store.diamond {u : ℕ} {n a b : Net V α} (ha : Step u n a) (hb : Store n b) :
    (u = 2 ∧ Step 1 b a) ∨ ∃ c, Store a c ∧ Step u b c := by
  cases hb with
  | @store p q v k hp =>
    cases ha with
    | @meet _ p' q' v' k' r' hp' hq' he' =>
      have hpq2 : p' ≠ q' := fun h => by rw [h, hq'] at hp'; exact absurd hp' (by simp)
      by_cases h1 : p = p'
      · subst h1
        rw [hp] at hp'
        injection hp' with e1 e2 e3
        subst e1 e2 e3
        left
        refine ⟨rfl, ?_⟩
        have h := Step.take (n := ⟨Function.update n.prog p k, Function.update n.chan (p, q) (n.chan (p, q) ++ [v])⟩)
          (p := p) (q := q) (v := v) (l := []) (r := r') (by simp [Function.update_of_ne hpq2.symm, hq']) (by simp [he'])
        have e : Function.update (Function.update n.chan (p, q) (n.chan (p, q) ++ [v])) (p, q) [] = n.chan := by
          rw [Function.update_idem, ← he', Function.update_eq_self]
        rw [e] at h
        exact h
      · right
        have hpq' : p ≠ q' := fun h => by rw [h, hq'] at hp; exact absurd hp (by simp)
        have hpair : (p', q') ≠ (p, q) := fun h => h1 (congrArg Prod.fst h).symm
        refine ⟨⟨Function.update (Function.update (Function.update n.prog p' k') q' (r' v')) p k,
          Function.update n.chan (p, q) (n.chan (p, q) ++ [v])⟩,
          .store (n := ⟨Function.update (Function.update n.prog p' k') q' (r' v'), n.chan⟩)
            (by simp [Function.update_of_ne hpq', Function.update_of_ne h1, hp]), ?_⟩
        have e : Function.update (Function.update (Function.update n.prog p' k') q' (r' v')) p k
            = Function.update (Function.update (Function.update n.prog p k) p' k') q' (r' v') := by
          funext x
          simp only [Function.update_apply]
          split_ifs <;> simp_all
        rw [e]
        exact .meet (n := ⟨Function.update n.prog p k, Function.update n.chan (p, q) (n.chan (p, q) ++ [v])⟩)
          (by simp [Function.update_of_ne (Ne.symm h1), hp']) (by simp [Function.update_of_ne hpq'.symm, hq'])
          (by simp [Function.update_of_ne hpair, he'])
    | @take _ p' q' v' l' r' hq' hc' =>
      right
      have hpq' : p ≠ q' := fun h => by rw [h, hq'] at hp; exact absurd hp (by simp)
      by_cases hpair : (p', q') = (p, q)
      · obtain ⟨rfl, rfl⟩ := (Prod.mk.injEq _ _ _ _).mp hpair
        refine ⟨⟨Function.update (Function.update n.prog q' (r' v')) p' k, Function.update n.chan (p', q') (l' ++ [v])⟩, ?_, ?_⟩
        · have h := Store.store (n := ⟨Function.update n.prog q' (r' v'), Function.update n.chan (p', q') l'⟩)
            (p := p') (q := q') (v := v) (k := k) (by simp [Function.update_of_ne hpq', hp])
          simpa [Function.update_idem] using h
        · rw [Function.update_comm hpq'.symm]
          have h := Step.take (n := ⟨Function.update n.prog p' k, Function.update n.chan (p', q') (n.chan (p', q') ++ [v])⟩)
            (p := p') (q := q') (v := v') (l := l' ++ [v]) (r := r') (by simp [Function.update_of_ne hpq'.symm, hq']) (by simp [hc'])
          simpa [Function.update_idem] using h
      · refine ⟨⟨Function.update (Function.update n.prog q' (r' v')) p k,
          Function.update (Function.update n.chan (p', q') l') (p, q) (n.chan (p, q) ++ [v])⟩, ?_, ?_⟩
        · have h := Store.store (n := ⟨Function.update n.prog q' (r' v'), Function.update n.chan (p', q') l'⟩)
            (p := p) (q := q) (v := v) (k := k) (by simp [Function.update_of_ne hpq', hp])
          simpa [Function.update_of_ne (Ne.symm hpair)] using h
        · rw [Function.update_comm hpq'.symm, Function.update_comm hpair]
          exact .take (n := ⟨Function.update n.prog p k, Function.update n.chan (p, q) (n.chan (p, q) ++ [v])⟩)
            (by simp [Function.update_of_ne hpq'.symm, hq']) (by simp [Function.update_of_ne hpair, hc'])

/-- Nothing is left to do, and no message is on its way. -/
def Finished (n : Net V α) : Prop := (∀ p, ∃ a, n.prog p = .done a) ∧ ∀ c, n.chan c = []

theorem Finished.no_step {u : ℕ} {n a : Net V α} (h : Finished n) : ¬ Step u n a := by
  intro hs
  cases hs with
  | @meet _ p q v k r hp hq he =>
    obtain ⟨x, hx⟩ := h.1 p
    rw [hx] at hp
    exact absurd hp (by simp)
  | @take _ p q v l r hq hc =>
    obtain ⟨x, hx⟩ := h.1 q
    rw [hx] at hq
    exact absurd hq (by simp)

theorem Finished.no_store {n a : Net V α} (h : Finished n) : ¬ Store n a := by
  intro hs
  cases hs with
  | @store p q v k hp =>
    obtain ⟨x, hx⟩ := h.1 p
    rw [hx] at hp
    exact absurd hp (by simp)

/-- Whatever step is made first, the end can still be reached, with less left to do. -/
theorem Run.after_step {w u : ℕ} {n f : Net V α} (hf : Finished f) (h : Run w n f) :
    ∀ {a : Net V α}, Step u n a → ∃ w', Run w' a f ∧ u + w' = w := by
  induction h with
  | refl n => exact fun hs => absurd hs hf.no_step
  | @step u' w a b c s r ih =>
    intro x hs
    rcases Step.diamond s hs with ⟨rfl, rfl⟩ | ⟨d, h1, h2⟩
    · exact ⟨w, r, rfl⟩
    · obtain ⟨w', h3, h4⟩ := ih hf h1
      exact ⟨u' + w', .step h2 h3, by omega⟩

/-- The same if a message is stored. -/
theorem Run.after_store {w : ℕ} {n f : Net V α} (hf : Finished f) (h : Run w n f) :
    ∀ {a : Net V α}, Store n a → ∃ w', Run w' a f ∧ 1 + w' = w := by
  induction h with
  | refl n => exact fun hs => absurd hs hf.no_store
  | @step u' w a b c s r ih =>
    intro x hs
    rcases Store.diamond s hs with ⟨rfl, h1⟩ | ⟨d, h1, h2⟩
    · exact ⟨1 + w, .step h1 r, by omega⟩
    · obtain ⟨w', h3, h4⟩ := ih hf h1
      exact ⟨u' + w', .step h2 h3, by omega⟩

theorem Step.pos {u : ℕ} {a b : Net V α} (h : Step u a b) : 1 ≤ u := by
  cases h <;> decide

/-- If the work can be finished in one way without storing messages, then every execution has a bounded number of steps, never gets
stuck, even if the system stores no more messages, and ends in the same way. -/
theorem Run.every {w : ℕ} {n f : Net V α} (hf : Finished f) (h : Run w n f) {t : ℕ} {m : Net V α} (he : Exec t n m) :
    (∃ w', Run w' m f ∧ t + w' ≤ w) ∧ ((∀ u a, ¬ Step u m a) → m = f) := by
  have key : ∃ w', Run w' m f ∧ t + w' ≤ w := by
    induction he generalizing w with
    | refl n => exact ⟨w, h, by omega⟩
    | step s _ ih =>
      obtain ⟨w', h1, h2⟩ := h.after_step hf s
      obtain ⟨w'', h3, h4⟩ := ih h1
      have := s.pos
      exact ⟨w'', h3, by omega⟩
    | store s _ ih =>
      obtain ⟨w', h1, h2⟩ := h.after_store hf s
      obtain ⟨w'', h3, h4⟩ := ih h1
      exact ⟨w'', h3, by omega⟩
  refine ⟨key, fun hs => ?_⟩
  obtain ⟨w', h1, -⟩ := key
  cases h1 with
  | refl => rfl
  | step s _ => exact absurd s (hs _ _)

end Verif.ParStruct
