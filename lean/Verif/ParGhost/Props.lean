import Verif.ParGhost.LemmasCount
import Verif.ParGhost.Order
import Mathlib.Data.Finset.Max

/-! # C109: the exchange of ghost values when processors do not wait for what they send -/

namespace Verif.ParGhost

variable {V T σ : Type}

/-- **C109.** Whatever the order of the steps and whenever the message system reads the buffers: as long as there is a collective
operation between any two exchanges (or sends were waited for), every processor has after each exchange what it has if all go together,
exchange by exchange. -/
theorem C109_together (c : Sys V T σ) (hf : Fits c) (R : ℕ) (hs : Safe c R) (mem : ℕ → σ) (buf slot : ℕ → ℕ → V) (mark : ℕ → ℕ → T)
    (t : ℕ) (s : St V T σ) (he : Exec c R t (start mem buf slot mark) s) (p : ℕ) (hp : p < c.m) (hw : s.waiting p = false) :
    s.mem p = together c mem (s.round p) p :=
  ((Inv.start c R mem buf slot mark).exec hf hs he).idle p hp hw

/-- Hence all complete executions have the same result. -/
theorem C109_result (c : Sys V T σ) (hf : Fits c) (R : ℕ) (hs : Safe c R) (mem : ℕ → σ) (buf slot : ℕ → ℕ → V) (mark : ℕ → ℕ → T)
    (t : ℕ) (s : St V T σ) (he : Exec c R t (start mem buf slot mark) s) (hd : Done c R s) (p : ℕ) (hp : p < c.m) :
    s.mem p = together c mem R p := by
  rw [C109_together c hf R hs mem buf slot mark t s he p hp (hd p hp).2, (hd p hp).1]

/-- **C109.** No deadlock: an execution which is not complete can go on, in every program whose dictionaries fit. -/
theorem C109_progress (c : Sys V T σ) (hf : Fits c) (R : ℕ) (mem : ℕ → σ) (buf slot : ℕ → ℕ → V) (mark : ℕ → ℕ → T)
    (t : ℕ) (s : St V T σ) (he : Exec c R t (start mem buf slot mark) s) (hd : ¬ Done c R s) : ∃ s', Step c R s s' := by
  have hB := (Base.start c R mem buf slot mark).exec he
  by_cases hm : c.m = 0
  · exact absurd (fun p hp => by omega) hd
  obtain ⟨p, hp, hmin⟩ := Finset.exists_min_image (Finset.range c.m) s.round ⟨0, Finset.mem_range.2 (by omega)⟩
  have hp := Finset.mem_range.1 hp
  have hmin : ∀ q, q < c.m → s.round p ≤ s.round q := fun q hq => hmin q (Finset.mem_range.2 hq)
  have begins : ∀ q, q < c.m → s.waiting q = false → s.round q = s.round p → s.round q < R → ∃ s', Step c R s s' :=
    fun q hq hw e hR => ⟨_, Step.begin s q hq hw hR (Or.inr (Or.inr fun u hu => e ▸ hmin u hu))⟩
  by_cases hw : s.waiting p = true
  · by_cases hpd : ∃ q, s.pending p q = true
    · obtain ⟨q, hq⟩ := hpd
      have hqr := hB.pend p hp hw q hq
      have hqm := hf.known p q hp hqr
      have hge := hmin q hqm
      by_cases hlt : s.round p < s.begun q
      · cases hc : s.copied q p (s.round p) with
        | none => exact ⟨_, Step.copy s q p (s.round p) hqm ((hf.fits q p hqm).2 ⟨hp, hqr⟩) hlt hc⟩
        | some v => exact ⟨_, Step.deliver s q p v hp hw hq hc⟩
      · unfold St.begun at hlt
        have hwq : s.waiting q = false := by
          by_contra hne
          simp only [Bool.not_eq_false] at hne
          rw [if_pos hne] at hlt
          omega
        have e : s.round q = s.round p := by
          rw [hwq] at hlt
          simp at hlt
          omega
        exact begins q hqm hwq e (e ▸ (hB.bound p hp).2 hw)
    · have hnp : ∀ q, s.pending p q = false := fun q => by
        by_contra h
        exact hpd ⟨q, by simpa using h⟩
      by_cases hu : ∃ q ∈ c.sends p, ∃ r < s.begun p, s.copied p q r = none
      · obtain ⟨q, hq, r, hr, hn⟩ := hu
        exact ⟨_, Step.copy s p q r hp hq hr hn⟩
      · exact ⟨_, Step.finish s p hp hw hnp fun _ q hq r hr hn => hu ⟨q, hq, r, hr, hn⟩⟩
  · have hw : s.waiting p = false := by simpa using hw
    by_cases hR : s.round p < R
    · exact begins p hp hw rfl hR
    · refine absurd (fun q hq => ?_) hd
      have h1 := hB.bound q hq
      have h2 := hmin q hq
      refine ⟨by omega, ?_⟩
      by_contra hne
      have := h1.2 (by simpa using hne)
      omega

/-- **C109.** And it cannot go on for ever: the number of steps is bounded by a number that depends on the dictionaries and the number of
exchanges only. -/
theorem C109_bounded (c : Sys V T σ) (R : ℕ) (mem : ℕ → σ) (buf slot : ℕ → ℕ → V) (mark : ℕ → ℕ → T)
    (t : ℕ) (s : St V T σ) (he : Exec c R t (start mem buf slot mark) s) : t ≤ limit c R := by
  have h1 := he.count (Base.start c R mem buf slot mark)
  have h2 := count_le ((Base.start c R mem buf slot mark).exec he)
  omega

/-- A complete execution exists from wherever one is. -/
theorem C109_completes (c : Sys V T σ) (hf : Fits c) (R : ℕ) (mem : ℕ → σ) (buf slot : ℕ → ℕ → V) (mark : ℕ → ℕ → T)
    (t : ℕ) (s : St V T σ) (he : Exec c R t (start mem buf slot mark) s) :
    ∃ t' s', Exec c R (t + t') (start mem buf slot mark) s' ∧ Exec c R t' s s' ∧ Done c R s' := by
  generalize hn : limit c R - t = n
  induction n generalizing t s with
  | zero =>
    by_cases hd : Done c R s
    · exact ⟨0, s, he, .refl s, hd⟩
    · obtain ⟨s', hs'⟩ := C109_progress c hf R mem buf slot mark t s he hd
      have := C109_bounded c R mem buf slot mark _ s' (he.step hs')
      omega
  | succ n ih =>
    by_cases hd : Done c R s
    · exact ⟨0, s, he, .refl s, hd⟩
    · obtain ⟨s', hs'⟩ := C109_progress c hf R mem buf slot mark t s he hd
      obtain ⟨t', s'', h1, h2, h3⟩ := ih (t + 1) s' (he.step hs') (by omega)
      exact ⟨t' + 1, s'', by rwa [Nat.add_comm t' 1, ← Nat.add_assoc], Exec.cons hs' h2, h3⟩

/-- Settings with a collective operation between any two exchanges of a call of `evolve`: the timestep is agreed on, and ghosts are
exchanged once a step. -/
def Settings.Single (o : Settings) : Prop :=
  (o.fixed = false ∨ o.testAllreduce = true) ∧ (o.method = .euler ∨ (o.method = .rk2 ∧ 4 ≤ o.width))

/-- **C109.** These are the settings for which a call of `evolve` with at least one step does so. -/
theorem C109_order (o : Settings) (n : ℕ) (hn : 0 < n) :
    (∀ r, r + 1 < exchanges (evolve o n) → between (evolve o n) r = true) ↔ o.Single := by
  constructor
  · intro h
    obtain ⟨k, rfl⟩ : ∃ k, n = k + 1 := ⟨n - 1, by omega⟩
    by_contra hns
    rcases Bool.eq_false_or_eq_true (o.fixed && !o.testAllreduce) with hf | hf
    · have h0 := h 0
      cases hm : o.method <;>
        simp [evolve, oneStep, timestep, hf, hm, List.replicate_succ, between, exchanges] at h0
      by_cases hw : o.width < 4 <;> simp [hw] at h0
    · have hfix : o.fixed = false ∨ o.testAllreduce = true := by
        revert hf
        cases o.fixed <;> cases o.testAllreduce <;> simp
      have h1 := h 1
      cases hm : o.method with
      | euler => exact hns ⟨hfix, Or.inl hm⟩
      | rk2 =>
        by_cases hw : o.width < 4
        · simp [evolve, oneStep, timestep, hf, hm, hw, List.replicate_succ, between, exchanges] at h1
        · exact hns ⟨hfix, Or.inr ⟨hm, by omega⟩⟩
      | rk3 => simp [evolve, oneStep, timestep, hf, hm, List.replicate_succ, between, exchanges] at h1
  · rintro ⟨hfix, hm⟩
    have hf : (o.fixed && !o.testAllreduce) = false := by
      revert hfix
      cases o.fixed <;> cases o.testAllreduce <;> simp
    have hone : oneStep o ++ [.ghosts] = [.reduce, .ghosts] := by
      rcases hm with hm | ⟨hm, hw⟩
      · simp [oneStep, timestep, hm, hf]
      · simp [oneStep, timestep, hm, hf, Nat.not_lt.2 hw]
    unfold evolve
    rw [hone]
    clear hn
    induction n with
    | zero => intro r hr; simp [exchanges] at hr
    | succ n ih =>
      intro r hr
      cases r with
      | zero => simp [List.replicate_succ, between]
      | succ r =>
        simp only [List.replicate_succ, List.flatten_cons, List.cons_append, List.nil_append, between]
        refine ih r ?_
        simp only [List.replicate_succ, List.flatten_cons, List.cons_append, List.nil_append, exchanges, List.count_cons] at hr ⊢
        simp at hr ⊢
        omega

/-- **C109.** Between the last exchange of a call of `evolve` and the first of the next there is none, whatever the settings. -/
theorem C109_again (o : Settings) (n k : ℕ) (ns : List ℕ) :
    ∃ r, r + 1 < exchanges (evolves o (n :: k :: ns)) ∧ between (evolves o (n :: k :: ns)) r = false := by
  have key : ∀ (a b : List Event), between (a ++ .ghosts :: .ghosts :: b) (exchanges a) = false := by
    intro a b
    induction a with
    | nil => rfl
    | cons e a ih =>
      cases e with
      | ghosts =>
        have : exchanges (Event.ghosts :: a) = exchanges a + 1 := by simp [exchanges]
        rw [this]
        exact ih
      | reduce =>
        have : exchanges (Event.reduce :: a) = exchanges a := by simp [exchanges]
        rw [this]
        exact ih
  obtain ⟨a, ha⟩ : ∃ a, evolve o n = a ++ [.ghosts] := by
    cases n with
    | zero => exact ⟨[], rfl⟩
    | succ n =>
      refine ⟨.ghosts :: ((List.replicate n (oneStep o ++ [.ghosts])).flatten ++ oneStep o), ?_⟩
      simp [evolve, List.replicate_succ']
  have e : evolves o (n :: k :: ns) =
      a ++ .ghosts :: .ghosts :: ((List.replicate k (oneStep o ++ [.ghosts])).flatten ++ evolves o ns) := by
    unfold evolves
    rw [List.flatMap_cons, List.flatMap_cons, ha]
    simp [evolve]
  refine ⟨exchanges a, ?_, by rw [e]; exact key a _⟩
  rw [e]
  simp only [exchanges, List.count_append, List.count_cons]
  simp

end Verif.ParGhost
