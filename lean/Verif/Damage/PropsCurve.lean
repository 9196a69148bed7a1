import Verif.Damage.PropsAssess

/-! # C112: the curves -/

set_option linter.unusedSectionVars false

namespace Verif.Damage

variable {K : Type} [Field K] [LinearOrder K] [IsStrictOrderedRing K] [FloorRing K]

theorem line_mono (l : List (K × K)) (hs : l.Pairwise fun a b => a.1 < b.1 ∧ a.2 ≤ b.2) (x y v w : K) (hxy : x ≤ y) (hv : Line l x v) (hw : Line l y w) :
    v ≤ w := by
  rw [← interp_line l (hs.imp And.left)] at hv hw
  cases l with
  | nil => cases hv
  | cons p l =>
    rw [interp] at hv hw
    by_cases h : x < p.1
    · rw [if_pos h] at hv; cases hv
    · rw [if_neg h] at hv
      rw [if_neg (by intro h'; exact h (lt_of_le_of_lt hxy h'))] at hw
      exact interpFrom_mono p l hs x y v w (not_lt.mp h) hxy hv hw

theorem contents_pairs : (curve contentsTable : List (K × K)).Pairwise fun a b => a.1 < b.1 ∧ a.2 ≤ b.2 := by
  have := contents_sorted (K := K)
  rw [contents_curve] at this
  exact (List.pairwise_cons.mp (List.pairwise_cons.mp this).2).2

theorem struct_pairs (wall : String) : (curve (structTable wall) : List (K × K)).Pairwise fun a b => a.1 < b.1 ∧ a.2 ≤ b.2 := by
  have := structCurve_sorted (K := K) wall
  rw [struct_curve] at this
  exact (List.pairwise_cons.mp (List.pairwise_cons.mp this).2).2

/-- **C112.** Of two structures of the same type which stand, the one in deeper water is not damaged less, nor are its contents. -/
theorem C112_deeper (rnd : ℕ → ℕ) (hs : List (House K)) (r : Result K) (hr : assess rnd hs = some r) (i j : ℕ) (h k : House K)
    (hi : hs[i]? = some h) (hj : hs[j]? = some k) (hd : h.depth ≤ k.depth) (hw : h.wall = k.wall)
    (ci : r.collapsed[i]? = some false) (cj : r.collapsed[j]? = some false) :
    ∃ s s' c c', r.structDamage[i]? = some s ∧ r.structDamage[j]? = some s' ∧ r.contentsDamage[i]? = some c ∧ r.contentsDamage[j]? = some c' ∧
      s ≤ s' ∧ c ≤ c' := by
  obtain ⟨s, c, b, a1, a2, a3, -, -, -, -, a4⟩ := C112_house rnd hs r hr i h hi
  obtain ⟨s', c', b', b1, b2, b3, -, -, -, -, b4⟩ := C112_house rnd hs r hr j k hj
  rw [ci] at a3; rw [cj] at b3
  cases a3; cases b3
  obtain ⟨a5, a6⟩ := a4 rfl
  obtain ⟨b5, b6⟩ := b4 rfl
  refine ⟨s, s', c, c', a1, b1, a2, b2, ?_⟩
  rcases lt_or_ge h.depth 0 with h0 | h0
  · obtain ⟨rfl, rfl⟩ := a5 h0
    rcases lt_or_ge k.depth 0 with k0 | k0
    · obtain ⟨rfl, rfl⟩ := b5 k0
      exact ⟨le_refl _, le_refl _⟩
    · obtain ⟨l1, l2⟩ := b6 k0
      constructor
      · have z : Line (curve (structTable k.wall)) (0 : K) (16 / 1000) := by
          unfold structTable
          by_cases e : k.wall = "Double Brick"
          · rw [if_pos e]; exact ⟨[], _, _, _, rfl, by simp, by norm_num, by simp⟩
          · rw [if_neg e]; exact ⟨[], _, _, _, rfl, by simp, by norm_num, by simp⟩
        have := line_mono _ (struct_pairs _) _ _ _ _ k0 z l1
        linarith [show (0 : K) < 16 / 1000 by norm_num]
      · have z : Line (curve contentsTable) (0 : K) (13 / 1000) := ⟨[], _, _, _, rfl, by simp, by norm_num, by simp⟩
        have := line_mono _ contents_pairs _ _ _ _ k0 z l2
        linarith [show (0 : K) < 13 / 1000 by norm_num]
  · obtain ⟨l1, l2⟩ := a6 h0
    obtain ⟨m1, m2⟩ := b6 (le_trans h0 hd)
    rw [hw] at l1
    exact ⟨line_mono _ (struct_pairs _) _ _ _ _ hd l1 m1, line_mono _ contents_pairs _ _ _ _ hd l2 m2⟩

/-- **C112.** The damage of contents is between 0 and 1 in water up to 2.14 m above the floor, that of structures up to 6.9 m; … -/
theorem C112_fraction (rnd : ℕ → ℕ) (hs : List (House K)) (r : Result K) (hr : assess rnd hs = some r) (i : ℕ) (h : House K) (hi : hs[i]? = some h) :
    ∃ s c, r.structDamage[i]? = some s ∧ r.contentsDamage[i]? = some c ∧ 0 ≤ s ∧ 0 ≤ c ∧
      (h.depth ≤ 69 / 10 → s ≤ 1) ∧ (h.depth ≤ 214 / 100 → c ≤ 1) := by
  obtain ⟨s, c, b, a1, a2, a3, -, -, -, a4, a5⟩ := C112_house rnd hs r hr i h hi
  refine ⟨s, c, a1, a2, ?_⟩
  cases b with
  | true =>
    obtain ⟨-, rfl, rfl⟩ := a4 rfl
    exact ⟨zero_le_one, zero_le_one, fun _ => le_refl _, fun _ => le_refl _⟩
  | false =>
    obtain ⟨a6, a7⟩ := a5 rfl
    rcases lt_or_ge h.depth 0 with h0 | h0
    · obtain ⟨rfl, rfl⟩ := a6 h0
      exact ⟨le_refl _, le_refl _, fun _ => zero_le_one, fun _ => zero_le_one⟩
    · obtain ⟨l1, l2⟩ := a7 h0
      have z : Line (curve (structTable h.wall)) (0 : K) (16 / 1000) := by
        unfold structTable
        by_cases e : h.wall = "Double Brick"
        · rw [if_pos e]; exact ⟨[], _, _, _, rfl, by simp, by norm_num, by simp⟩
        · rw [if_neg e]; exact ⟨[], _, _, _, rfl, by simp, by norm_num, by simp⟩
      have z' : Line (curve contentsTable) (0 : K) (13 / 1000) := ⟨[], _, _, _, rfl, by simp, by norm_num, by simp⟩
      refine ⟨?_, ?_, fun hd => ?_, fun hd => ?_⟩
      · have := line_mono _ (struct_pairs _) _ _ _ _ h0 z l1
        linarith [show (0 : K) < 16 / 1000 by norm_num]
      · have := line_mono _ contents_pairs _ _ _ _ h0 z' l2
        linarith [show (0 : K) < 13 / 1000 by norm_num]
      · have : ∃ v : K, Line (curve (structTable h.wall)) (69 / 10) v ∧ v ≤ 1 := by
          unfold structTable
          by_cases e : h.wall = "Double Brick"
          · rw [if_pos e]
            refine ⟨647 / 1000 + (64700 - 647) / 1000 * (69 / 10 - 25 / 10) / (1000 - 25 / 10), ⟨curve (brickTable.take 7), ((250 : ℤ) / 100, (647 : ℤ) / 1000),
              ((100000 : ℤ) / 100, (64700 : ℤ) / 1000), [], ?_, ?_, ?_, ?_⟩, ?_⟩
            · simp [curve, brickTable]
            all_goals norm_num
          · rw [if_neg e]
            refine ⟨694 / 1000 + (69400 - 694) / 1000 * (69 / 10 - 25 / 10) / (1000 - 25 / 10), ⟨curve (veneerTable.take 7), ((250 : ℤ) / 100, (694 : ℤ) / 1000),
              ((100000 : ℤ) / 100, (69400 : ℤ) / 1000), [], ?_, ?_, ?_, ?_⟩, ?_⟩
            · simp [curve, veneerTable]
            all_goals norm_num
        obtain ⟨v, hv, hv1⟩ := this
        exact le_trans (line_mono _ (struct_pairs _) _ _ _ _ hd l1 hv) hv1
      · have : ∃ v : K, Line (curve contentsTable) (214 / 100) v ∧ v ≤ 1 := by
          refine ⟨986 / 1000 + (98600 - 986) / 1000 * (214 / 100 - 2) / (1000 - 2), ⟨curve (contentsTable.take 6), ((200 : ℤ) / 100, (986 : ℤ) / 1000),
            ((100000 : ℤ) / 100, (98600 : ℤ) / 1000), [], ?_, ?_, ?_, ?_⟩, ?_⟩
          · simp [curve, contentsTable]
          all_goals norm_num
        obtain ⟨v, hv, hv1⟩ := this
        exact le_trans (line_mono _ contents_pairs _ _ _ _ hd l2 hv) hv1

/-- **C112.** … in deeper water it is not: contents of a structure which stands lose more than their value from 2.15 m on, structures from
8 m on. One that has collapsed loses less. -/
theorem C112_more_than_all (rnd : ℕ → ℕ) (hs : List (House K)) (r : Result K) (hr : assess rnd hs = some r) (i : ℕ) (h : House K)
    (hi : hs[i]? = some h) (ci : r.collapsed[i]? = some false) :
    ∃ s c, r.structDamage[i]? = some s ∧ r.contentsDamage[i]? = some c ∧ (8 ≤ h.depth → 1 < s) ∧ (215 / 100 ≤ h.depth → 1 < c) ∧
      (8 ≤ h.depth → 0 < h.cost → ∃ l, r.structLoss[i]? = some l ∧ h.cost < l) ∧
      (215 / 100 ≤ h.depth → 0 < h.contents → ∃ l, r.contentsLoss[i]? = some l ∧ h.contents < l) := by
  obtain ⟨s, c, b, a1, a2, a3, k1, k2, -, a4, a5⟩ := C112_house rnd hs r hr i h hi
  rw [ci] at a3
  cases a3
  obtain ⟨-, a7⟩ := a5 rfl
  have hs' : 8 ≤ h.depth → 1 < s := by
    intro hd
    obtain ⟨l1, -⟩ := a7 (by linarith)
    have : ∃ v : K, Line (curve (structTable h.wall)) 8 v ∧ 1 < v := by
      unfold structTable
      by_cases e : h.wall = "Double Brick"
      · rw [if_pos e]
        refine ⟨647 / 1000 + (64700 - 647) / 1000 * (8 - 25 / 10) / (1000 - 25 / 10), ⟨curve (brickTable.take 7), ((250 : ℤ) / 100, (647 : ℤ) / 1000),
          ((100000 : ℤ) / 100, (64700 : ℤ) / 1000), [], ?_, ?_, ?_, ?_⟩, ?_⟩
        · simp [curve, brickTable]
        all_goals norm_num
      · rw [if_neg e]
        refine ⟨694 / 1000 + (69400 - 694) / 1000 * (8 - 25 / 10) / (1000 - 25 / 10), ⟨curve (veneerTable.take 7), ((250 : ℤ) / 100, (694 : ℤ) / 1000),
          ((100000 : ℤ) / 100, (69400 : ℤ) / 1000), [], ?_, ?_, ?_, ?_⟩, ?_⟩
        · simp [curve, veneerTable]
        all_goals norm_num
    obtain ⟨v, hv, hv1⟩ := this
    exact lt_of_lt_of_le hv1 (line_mono _ (struct_pairs _) _ _ _ _ hd hv l1)
  have hc' : 215 / 100 ≤ h.depth → 1 < c := by
    intro hd
    obtain ⟨-, l2⟩ := a7 (by linarith [show (0 : K) < 215 / 100 by norm_num])
    have : ∃ v : K, Line (curve contentsTable) (215 / 100) v ∧ 1 < v := by
      refine ⟨986 / 1000 + (98600 - 986) / 1000 * (215 / 100 - 2) / (1000 - 2), ⟨curve (contentsTable.take 6), ((200 : ℤ) / 100, (986 : ℤ) / 1000),
        ((100000 : ℤ) / 100, (98600 : ℤ) / 1000), [], ?_, ?_, ?_, ?_⟩, ?_⟩
      · simp [curve, contentsTable]
      all_goals norm_num
    obtain ⟨v, hv, hv1⟩ := this
    exact lt_of_lt_of_le hv1 (line_mono _ contents_pairs _ _ _ _ hd hv l2)
  refine ⟨s, c, a1, a2, hs', hc', fun hd hp => ⟨_, k1, ?_⟩, fun hd hp => ⟨_, k2, ?_⟩⟩
  · have := mul_lt_mul_of_pos_right (hs' hd) hp
    linarith
  · have := mul_lt_mul_of_pos_right (hc' hd) hp
    linarith

end Verif.Damage
