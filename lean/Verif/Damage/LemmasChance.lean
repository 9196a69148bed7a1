import Verif.Damage.LemmasCollapse

set_option linter.unusedSectionVars false

namespace Verif.Damage

variable {K : Type} [Field K] [LinearOrder K] [IsStrictOrderedRing K]

theorem bin_shore (s : K) : bin shoreLimits s = some (if s ≤ 125 then 0 else if s ≤ 200 then 1 else if s ≤ 250 then 2 else 3) := by
  unfold bin shoreLimits
  by_cases h1 : s ≤ 125
  · simp [List.findIdx?_cons, h1]
  · by_cases h2 : s ≤ 200
    · simp [List.findIdx?_cons, h1, h2]
    · by_cases h3 : s ≤ 250 <;> simp [List.findIdx?_cons, h1, h2, h3]

theorem bin_depth (d : K) : bin (depthLimits (K := K)).tail d =
    some (if d ≤ 1 then 0 else if d ≤ 2 then 1 else if d ≤ 3 then 2 else if d ≤ 5 then 3 else 4) := by
  unfold bin depthLimits
  by_cases h1 : d ≤ 1
  · simp [List.findIdx?_cons, h1]
  · by_cases h2 : d ≤ 2
    · simp [List.findIdx?_cons, h1, h2]
    · by_cases h3 : d ≤ 3
      · simp [List.findIdx?_cons, h1, h2, h3]
      · by_cases h4 : d ≤ 5 <;> simp [List.findIdx?_cons, h1, h2, h3, h4]

/-- The table gives the chance. -/
theorem probability_chance (h : House K) : probability h = if chance h.depth h.shore = 0 then none else some (chance h.depth h.shore) := by
  unfold probability
  have hh : (depthLimits (K := K)).head? = some (some (1 / 10 ^ 12)) := rfl
  simp only [hh, bin_depth, bin_shore]
  unfold chance
  by_cases h0 : h.depth ≤ 1 / 10 ^ 12
  · simp only [if_pos h0, if_true]
  · simp only [if_neg h0]
    have key : ∀ i j : ℕ, ∀ c : K, (table.getD (i + 1) []).getD j 0 = c →
        (if (table.getD (i + 1) []).getD j (0 : K) = 0 then none else some ((table.getD (i + 1) []).getD j (0 : K))) =
          if c = 0 then none else some c := by intro i j c e; rw [e]
    by_cases h1 : h.depth ≤ 1 <;> [skip; by_cases h2 : h.depth ≤ 2 <;> [skip; by_cases h3 : h.depth ≤ 3 <;> [skip; by_cases h4 : h.depth ≤ 5]]] <;>
    by_cases s1 : h.shore ≤ 125 <;> [skip; by_cases s2 : h.shore ≤ 200 <;> [skip; by_cases s3 : h.shore ≤ 250]; skip; by_cases s2 : h.shore ≤ 200 <;> [skip; by_cases s3 : h.shore ≤ 250]; skip; by_cases s2 : h.shore ≤ 200 <;> [skip; by_cases s3 : h.shore ≤ 250]; skip; by_cases s2 : h.shore ≤ 200 <;> [skip; by_cases s3 : h.shore ≤ 250]; skip; by_cases s2 : h.shore ≤ 200 <;> [skip; by_cases s3 : h.shore ≤ 250]] <;>
    (simp only [*, if_true, if_false]; first | (apply key; simp [table]; done) | (apply key; simp [table]; norm_num; done) | (simp [table]; done))

theorem chance_bounds (d s : K) : 0 ≤ chance d s ∧ chance d s ≤ 1 := by
  unfold chance
  dsimp only
  split_ifs <;> norm_num

end Verif.Damage
