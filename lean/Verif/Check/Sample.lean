import Verif.Check.Props

/-!
# Cases of checkpoint files
-/

namespace Verif.Check

/-- Numbers from 100 on stand for text which is no number. -/
def sampleNum (n : ℕ) : Option ℕ := if n < 100 then some n else none

/-- Two processors: both have files of times 1, 3 and 5; the second one cannot load its file of time 5. -/
def sampleDisks : List (Disk String ℕ ℕ (ℕ × ℕ)) :=
  [⟨"d_P2_0", [[("d_P2_0", 5), ("d_P2_1", 7), ("d_P2_0", 3)], [("d_P2_0", 1), ("d_P2_0", 9), ("x", 100)]], fun t => some (0, t)⟩,
   ⟨"d_P2_1", [[("d_P2_1", 1), ("d_P2_1", 3), ("d_P2_1", 5)]], fun t => if t = 5 then none else some (1, t)⟩]

example : loadAll sampleNum none sampleDisks = .loaded [(0, 3), (1, 3)] := by decide +kernel

example : loadAll sampleNum (some 1) sampleDisks = .loaded [(0, 1), (1, 1)] := by decide +kernel

example : loadAll sampleNum (some 5) sampleDisks = .failed := by decide +kernel

theorem sample_tidy : ∀ d ∈ sampleDisks, Tidy sampleNum d := by
  intro d hd
  apply (timesOf_spec sampleNum d.name d.dirs).1.mp
  simp only [sampleDisks, List.mem_cons, List.not_mem_nil, or_false] at hd
  rcases hd with rfl | rfl
  · exact ⟨[5, 3, 1, 9], by decide +kernel⟩
  · exact ⟨[1, 3, 5], by decide +kernel⟩

/-- The hypotheses of `C120_latest` are met. -/
example : ∃ t ds, loadAll sampleNum none sampleDisks = .loaded ds ∧ AllAt sampleDisks t ds := by
  rcases C120_latest sampleNum sampleDisks (by simp [sampleDisks]) sample_tidy with ⟨t, ds, h, _, h'⟩ | ⟨h, _⟩
  · exact ⟨t, ds, h, h'⟩
  · exact absurd h (by decide +kernel)

/-- A directory without files beside the checkpoint files. -/
example : loadAll sampleNum none [(⟨"d", [[("d", 5)], []], fun t => some (0, t)⟩ : Disk String ℕ ℕ (ℕ × ℕ))] = .broken :=
  C120_broken _ _ _ List.mem_cons_self fun h => (h [] (by simp)).1 rfl

end Verif.Check
