import Verif.Basic
import Mathlib.Data.List.Perm.Basic

/-! # Intervals that fill an interval -/

set_option linter.unusedSectionVars false

namespace Verif.Cross

variable {K : Type*} [Field K] [LinearOrder K] [IsStrictOrderedRing K]

theorem next_above (c d : K) (hcd : c < d) (xs : List K) : ∃ m, c < m ∧ m ≤ d ∧ ∀ x ∈ xs, c < x → m ≤ x := by
  induction xs with
  | nil => exact ⟨d, hcd, le_rfl, by simp⟩
  | cons x xs ih =>
    obtain ⟨m, h1, h2, h3⟩ := ih
    by_cases hx : c < x
    · refine ⟨min m x, lt_min h1 hx, (min_le_left _ _).trans h2, ?_⟩
      intro y hy hc
      rcases List.mem_cons.mp hy with rfl | hy
      · exact min_le_right _ _
      · exact (min_le_left _ _).trans (h3 y hy hc)
    · refine ⟨m, h1, h2, ?_⟩
      intro y hy hc
      rcases List.mem_cons.mp hy with rfl | hy
      · exact absurd hc hx
      · exact h3 y hy hc

theorem tile (f : K → K) : ∀ (n : ℕ) (L : List (K × K)) (c d : K), L.length = n → c ≤ d → L.Nodup →
    (∀ e ∈ L, c ≤ e.1 ∧ e.1 < e.2 ∧ e.2 ≤ d) → (∀ e ∈ L, ∀ e' ∈ L, e ≠ e' → e.2 ≤ e'.1 ∨ e'.2 ≤ e.1) →
    (∀ t, c < t → t < d → (∀ e ∈ L, t ≠ e.1 ∧ t ≠ e.2) → ∃ e ∈ L, e.1 ≤ t ∧ t ≤ e.2) →
    (L.map fun e => f e.2 - f e.1).sum = f d - f c := by
  intro n
  induction n with
  | zero =>
    intro L c d hl hcd _ _ _ hcov
    rw [List.length_eq_zero_iff] at hl
    subst hl
    rcases hcd.eq_or_lt with rfl | h
    · simp
    · obtain ⟨e, he, -⟩ := hcov ((c + d) / 2) (by linarith) (by linarith) (by simp)
      simp at he
  | succ n ih =>
    intro L c d hl hcd hnd hin hdis hcov
    rcases hcd.eq_or_lt with rfl | h
    · obtain ⟨e, L', rfl⟩ := List.exists_cons_of_length_eq_add_one hl
      obtain ⟨h1, h2, h3⟩ := hin e (by simp)
      linarith
    obtain ⟨m, m1, m2, m3⟩ := next_above c d h (L.map Prod.fst ++ L.map Prod.snd)
    have hp : c < (c + m) / 2 ∧ (c + m) / 2 < m := by constructor <;> linarith
    have off : ∀ x ∈ L.map Prod.fst ++ L.map Prod.snd, (c + m) / 2 ≠ x := by
      intro x hx he
      have := m3 x hx (by rw [← he]; exact hp.1)
      rw [← he] at this
      linarith
    obtain ⟨e, he, h1, h2⟩ := hcov ((c + m) / 2) hp.1 (by linarith) (fun e he => ⟨off _ (List.mem_append_left _ (List.mem_map_of_mem he)),
      off _ (List.mem_append_right _ (List.mem_map_of_mem he))⟩)
    have e1 : e.1 = c := by
      by_contra hne
      have := m3 e.1 (List.mem_append_left _ (List.mem_map_of_mem he)) (lt_of_le_of_ne (hin e he).1 (Ne.symm hne))
      linarith
    have hperm := List.perm_cons_erase he
    have hsum := (hperm.map fun e => f e.2 - f e.1).sum_eq
    rw [hsum, List.map_cons, List.sum_cons]
    have hmem : ∀ {e'}, e' ∈ L.erase e → e' ∈ L ∧ e' ≠ e := by
      intro e' h'
      have := (List.Nodup.mem_erase_iff hnd).mp h'
      exact ⟨this.2, this.1⟩
    have hrec := ih (L.erase e) e.2 d (by rw [List.length_erase_of_mem he]; omega) (hin e he).2.2 (hnd.erase e) ?_ ?_ ?_
    · rw [hrec, e1]
      ring
    · intro e' h'
      obtain ⟨h3, h4⟩ := hmem h'
      obtain ⟨b1, b2, b3⟩ := hin e' h3
      refine ⟨?_, b2, b3⟩
      rcases hdis e he e' h3 (Ne.symm h4) with h5 | h5
      · exact h5
      · rw [e1] at h5
        linarith
    · intro a ha b hb hab
      exact hdis a (hmem ha).1 b (hmem hb).1 hab
    · intro t t1 t2 t3
      have hb := hin e he
      obtain ⟨e', h3, h4, h5⟩ := hcov t (by linarith) t2 (by
        intro e' h'
        by_cases hee : e' = e
        · subst hee
          exact ⟨by linarith, t1.ne'⟩
        · exact t3 e' ((List.Nodup.mem_erase_iff hnd).mpr ⟨hee, h'⟩))
      refine ⟨e', (List.Nodup.mem_erase_iff hnd).mpr ⟨?_, h3⟩, h4, h5⟩
      rintro rfl
      linarith

end Verif.Cross
