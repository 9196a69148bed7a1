import Verif.ParGhost.LemmasRace
import Verif.ParGhost.Props

/-! # C109: what can go wrong when processors do not wait for what they send -/

namespace Verif.ParGhost

variable {V T σ : Type}

/-- **C109.** If two exchanges follow each other without a collective operation, a neighbour can get the values of the next exchange in
place of those of this one: so it is for every computation of two processors that exchange ghosts. -/
theorem C109_race (c : Sys V T σ) (hc : Pair c) (hw : c.waitSends = false) (R r : ℕ) (hr : r + 1 < R) (hn : c.coll r = false)
    (mem : ℕ → σ) (buf slot : ℕ → ℕ → V) (mark : ℕ → ℕ → T) :
    ∃ t s, Exec c R t (start mem buf slot mark) s ∧ s.round 1 = r + 1 ∧ s.waiting 1 = false ∧
      s.mem 1 = c.next 1 (here c mem r 1) [c.out 0 (together c mem (r + 1) 0) 1] ∧
      together c mem (r + 1) 1 = c.next 1 (here c mem r 1) [c.out 0 (here c mem r 0) 1] := by
  obtain ⟨t, s, he, hl⟩ := Level.reach (R := R) (mem := mem) (buf := buf) (slot := slot) (mark := mark) hc hw r (by omega)
  obtain ⟨t', s', he', h1, h2, h3⟩ := hl.race hc hw hr hn
  exact ⟨t + t', s', he.append he', h1, h2, h3, by simp [together_succ, hc.r1]⟩

/-- **C109.** The method of second order with few layers of ghosts, that of third order and fixed timesteps allow this, in every call of
`evolve` with at least one step. -/
theorem C109_settings (o : Settings) (ho : ¬ o.Single) (n : ℕ) (hn : 0 < n) (c : Sys V T σ) (hc : Pair c) (hw : c.waitSends = false)
    (hcoll : c.coll = between (evolve o n)) (mem : ℕ → σ) (buf slot : ℕ → ℕ → V) (mark : ℕ → ℕ → T) :
    ∃ r t s, Exec c (exchanges (evolve o n)) t (start mem buf slot mark) s ∧ s.round 1 = r + 1 ∧ s.waiting 1 = false ∧
      s.mem 1 = c.next 1 (here c mem r 1) [c.out 0 (together c mem (r + 1) 0) 1] ∧
      together c mem (r + 1) 1 = c.next 1 (here c mem r 1) [c.out 0 (here c mem r 0) 1] := by
  have : ¬ ∀ r, r + 1 < exchanges (evolve o n) → between (evolve o n) r = true := fun h => ho ((C109_order o n hn).1 h)
  push Not at this
  obtain ⟨r, hr, hb⟩ := this
  exact ⟨r, C109_race c hc hw _ r hr (by rw [hcoll]; simpa using hb) mem buf slot mark⟩

/-- **C109.** With the other settings one call of `evolve` has the same result in all executions. -/
theorem C109_evolve (o : Settings) (ho : o.Single) (n : ℕ) (c : Sys V T σ) (hf : Fits c) (hcoll : c.coll = between (evolve o n))
    (mem : ℕ → σ) (buf slot : ℕ → ℕ → V) (mark : ℕ → ℕ → T) (t : ℕ) (s : St V T σ)
    (he : Exec c (exchanges (evolve o n)) t (start mem buf slot mark) s) (hd : Done c (exchanges (evolve o n)) s) (p : ℕ)
    (hp : p < c.m) : s.mem p = together c mem (exchanges (evolve o n)) p := by
  refine C109_result c hf _ (Or.inr fun r hr => ?_) mem buf slot mark t s he hd p hp
  rw [hcoll]
  rcases Nat.eq_zero_or_pos n with rfl | hn
  · simp [evolve, exchanges] at hr
  · exact (C109_order o n hn).2 ho r hr

end Verif.ParGhost
