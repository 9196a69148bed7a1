import Verif.Erode.Spec

/-!
# Lemmas: depths, levelling, means
-/

set_option linter.unusedSectionVars false

namespace Verif.Erode

open Verif.SetQ Verif.NodeAvg

variable {K : Type*} [Field K] [LinearOrder K] [IsStrictOrderedRing K]

theorem liftWater_depth (s : State K) (ids : List ℕ) (new : List K) (k : ℕ) : depth (liftWater s ids new) k = depth s k := by
  unfold depth liftWater
  simp only
  rw [zip_map, put_map]
  split_ifs with hk
  · ring
  · rw [put_not_mem _ _ _ _ hk]

theorem liftWater_same (s : State K) (ids : List ℕ) (new : List K) : SameWater s (liftWater s ids new) :=
  ⟨liftWater_depth s ids new, rfl, rfl⟩

theorem liftWater_out (s : State K) (ids : List ℕ) (new : List K) : OnlyChanges (· ∈ ids) s (liftWater s ids new) := by
  intro k hk
  exact ⟨put_not_mem _ _ _ _ hk, put_not_mem _ _ _ _ hk⟩

theorem liftWater_elev (s : State K) (ids : List ℕ) (g : ℕ → K) (k : ℕ) (hk : k ∈ ids) :
    (liftWater s ids (ids.map g)).elev k = g k := by
  unfold liftWater
  simp only
  rw [put_map, if_pos hk]

theorem cleanUp_same (d : Dom K) (nodeIds vols : List ℕ) (ev : ℕ → K) (s : State K) : SameWater s (cleanUp d nodeIds vols ev s) :=
  ⟨fun k => liftWater_depth s vols _ k, rfl, rfl⟩

theorem cleanUp_levelled (d : Dom K) (ha : IsArgsort d.flat d.vvi) (ids nodeIds vols : List ℕ) (hn : IsNodeIds d ids nodeIds)
    (hv : IsVols d nodeIds vols) (f : ℕ → K) (s : State K) (ev : ℕ → K) (hev : ∀ c, ev c = if c / 3 ∈ ids then f c else s.ev c) :
    Levelled d ids f s (cleanUp d nodeIds vols ev s) := by
  have hev' : ev = fun c => if c / 3 ∈ ids then f c else s.ev c := funext hev
  have hnode : ∀ u, u ∈ nodeIds ↔ ∃ c', c' / 3 ∈ ids ∧ d.flat[c']? = some u := by
    intro u
    rw [hn.2 u]
    simp only [mem_corners]
  have hvol : ∀ k, k ∈ vols ↔ Touches d ids k := by
    intro k
    rw [mem_vols d ha nodeIds vols hv]
    unfold Touches
    constructor
    · rintro ⟨c, hc, u, hu, hcu⟩
      obtain ⟨c', h1, h2⟩ := (hnode u).1 hu
      exact ⟨c, c', u, hc, h1, hcu, h2⟩
    · rintro ⟨c, c', u, hc, h1, hcu, h2⟩
      exact ⟨c, hc, u, (hnode u).2 ⟨c', h1, h2⟩, hcu⟩
  have hEv : (cleanUp d nodeIds vols ev s).ev = nodeIds.foldl (levelNode d) ev := rfl
  refine ⟨?_, ?_, ?_, ?_, ?_⟩
  · intro c u hc hu
    rw [hEv, (level_all d ha nodeIds hn.1 ev c).1 u hc ((hnode u).2 hu), hev']
  · intro c u hc hu
    rw [hEv, (level_all d ha nodeIds hn.1 ev c).2]
    · rw [hev c, if_neg fun h => hu ⟨c, h, hc⟩]
    · intro w hw hcw
      rw [hc] at hcw
      cases hcw
      exact hu ((hnode _).1 hw)
  · intro hcont c c' u hc hc'
    rw [hEv]
    by_cases hu : u ∈ nodeIds
    · rw [(level_all d ha nodeIds hn.1 _ c).1 u hc hu, (level_all d ha nodeIds hn.1 _ c').1 u hc' hu]
    · have hno : ∀ c : ℕ, d.flat[c]? = some u → ∀ w ∈ nodeIds, d.flat[c]? ≠ some w := by
        intro c hc w hw hcw
        rw [hc] at hcw
        cases hcw
        exact hu hw
      have hout : ∀ c : ℕ, d.flat[c]? = some u → ¬ c / 3 ∈ ids := fun c hc h => hu ((hnode u).2 ⟨c, h, hc⟩)
      rw [(level_all d ha nodeIds hn.1 _ c).2 (hno c hc), (level_all d ha nodeIds hn.1 _ c').2 (hno c' hc'),
        hev c, hev c', if_neg (hout c hc), if_neg (hout c' hc')]
      exact hcont c c' u hc hc'
  · intro k hk
    have hk' := (hvol k).2 hk
    have hm : ∀ e, e < 3 → 3 * k + e ∈ corners vols := by
      intro e he
      rw [mem_corners]
      have : (3 * k + e) / 3 = k := by omega
      rwa [this]
    refine ⟨liftWater_elev s vols _ k hk', ?_, ?_, ?_⟩
    · unfold cleanUp
      simp only
      rw [put_map, if_pos (by simpa using hm 0 (by omega))]
      exact (midpoint_eq _ k).1
    · unfold cleanUp
      simp only
      rw [put_map, if_pos (hm 1 (by omega))]
      exact (midpoint_eq _ k).2.1
    · unfold cleanUp
      simp only
      rw [put_map, if_pos (hm 2 (by omega))]
      exact (midpoint_eq _ k).2.2
  · intro k hk
    exact liftWater_out s vols _ k fun h => hk ((hvol k).1 h)

/-- A mean lies between bounds of its terms. -/
theorem cornerMean_bounds (flat : List ℕ) (f : ℕ → K) (u : ℕ) (hu : u ∈ flat) (lo hi : K)
    (h : ∀ c, flat[c]? = some u → lo ≤ f c ∧ f c ≤ hi) : lo ≤ cornerMean flat f u ∧ cornerMean flat f u ≤ hi := by
  have hpos : (0 : K) < ((cornersAt flat u).card : K) := by
    rw [card_cornersAt, Nat.cast_pos]
    exact List.count_pos_iff.mpr hu
  unfold cornerMean
  constructor
  · rw [le_div_iff₀ hpos]
    calc lo * ((cornersAt flat u).card : K) = ∑ _c ∈ cornersAt flat u, lo := by rw [Finset.sum_const, nsmul_eq_mul, mul_comm]
      _ ≤ _ := Finset.sum_le_sum fun c hc => (h c ((mem_cornersAt _ _ _).1 hc)).1
  · rw [div_le_iff₀ hpos]
    calc _ ≤ ∑ _c ∈ cornersAt flat u, hi := Finset.sum_le_sum fun c hc => (h c ((mem_cornersAt _ _ _).1 hc)).2
      _ = _ := by rw [Finset.sum_const, nsmul_eq_mul, mul_comm]

theorem greatest_spec (l : List K) (m : K) (h : greatest l = some m) : m ∈ l ∧ ∀ a ∈ l, a ≤ m := by
  cases l with
  | nil => cases h
  | cons a l =>
    have key : ∀ (l : List K) (a : K), (l.foldl max a ∈ a :: l) ∧ ∀ b ∈ a :: l, b ≤ l.foldl max a := by
      intro l
      induction l with
      | nil => intro a; simp
      | cons b l ih =>
        intro a
        rw [List.foldl_cons]
        obtain ⟨h1, h2⟩ := ih (max a b)
        constructor
        · rcases List.mem_cons.1 h1 with h | h
          · rw [h]
            rcases max_choice a b with h | h <;> rw [h] <;> simp
          · exact List.mem_cons_of_mem _ (List.mem_cons_of_mem _ h)
        · intro c hc
          have hm := h2 (max a b) (by simp)
          rcases List.mem_cons.1 hc with rfl | hc
          · exact (le_max_left _ _).trans hm
          · rcases List.mem_cons.1 hc with rfl | hc
            · exact (le_max_right _ _).trans hm
            · exact h2 c (List.mem_cons_of_mem _ hc)
    cases h
    exact key l a

end Verif.Erode
