import Verif.Extrap.Spec

set_option linter.unusedSectionVars false

namespace Verif.Extrap

open Verif.Flux (Q3 Edge Dom)

variable {K : Type*} [Field K] [LinearOrder K] [IsStrictOrderedRing K] {N : ℕ}

theorem tiny_pos : (0 : K) < tiny := by unfold tiny; positivity

theorem limFold (qmin qmax : K) (h1 : qmin ≤ 0) (h2 : 0 ≤ qmax) (L : List K) (s : K × K) (hs : 0 ≤ s.1 ∧ 0 ≤ s.2) :
    let r := L.foldl (limStep qmin qmax) s
    0 ≤ r.1 ∧ 0 ≤ r.2 ∧ r.1 ≤ s.1 ∧ ∀ d ∈ L, (d < -tiny → r.1 ≤ qmin / d) ∧ (d > tiny → r.1 ≤ qmax / d) := by
  induction L generalizing s with
  | nil => simp [hs.1, hs.2]
  | cons d L ih =>
    have ht : (0 : K) < tiny := tiny_pos
    have hb : 0 ≤ (limStep qmin qmax s d).1 ∧ 0 ≤ (limStep qmin qmax s d).2 ∧ (limStep qmin qmax s d).1 ≤ s.1 ∧
        (d < -tiny → (limStep qmin qmax s d).1 ≤ qmin / d) ∧ (d > tiny → (limStep qmin qmax s d).1 ≤ qmax / d) := by
      unfold limStep
      simp only
      by_cases c1 : d < -tiny
      · have c2 : ¬ d > tiny := by intro h; linarith
        have hq : 0 ≤ qmin / d := div_nonneg_of_nonpos h1 (by linarith)
        rw [if_pos c1, if_neg c2]
        exact ⟨le_min hq hs.1, hq, min_le_right _ _, fun _ => min_le_left _ _, fun h => absurd h c2⟩
      · rw [if_neg c1]
        by_cases c2 : d > tiny
        · rw [if_pos c2]
          have hq : 0 ≤ qmax / d := div_nonneg h2 (by linarith)
          exact ⟨le_min hq hs.1, hq, min_le_right _ _, fun h => absurd h c1, fun _ => min_le_left _ _⟩
        · rw [if_neg c2]
          exact ⟨le_min hs.2 hs.1, hs.2, min_le_right _ _, fun h => absurd h c1, fun h => absurd h c2⟩
    obtain ⟨g1, g2, g3, g4⟩ := ih (limStep qmin qmax s d) ⟨hb.1, hb.2.1⟩
    simp only [List.foldl_cons]
    refine ⟨g1, g2, g3.trans hb.2.2.1, ?_⟩
    intro x hx
    rcases List.mem_cons.1 hx with rfl | hx
    · exact ⟨fun h => g3.trans (hb.2.2.2.1 h), fun h => g3.trans (hb.2.2.2.2 h)⟩
    · exact g4 x hx

/-- The limiting factor lies between 0 and 1, and keeps every jump within `beta` times the allowed range. -/
theorem limPhi_spec (d : Fin 3 → K) (qmin qmax beta : K) (h1 : qmin ≤ 0) (h2 : 0 ≤ qmax) (hb : 0 ≤ beta) :
    0 ≤ limPhi d qmin qmax beta ∧ limPhi d qmin qmax beta ≤ 1 ∧
      ∀ i, (d i < -tiny → beta * qmin ≤ limit d qmin qmax beta i ∧ limit d qmin qmax beta i ≤ 0) ∧
        (d i > tiny → limit d qmin qmax beta i ≤ beta * qmax ∧ 0 ≤ limit d qmin qmax beta i) := by
  obtain ⟨g1, _, _, g4⟩ := limFold qmin qmax h1 h2 ((List.finRange 3).map d) (1000, 1) ⟨by norm_num, by norm_num⟩
  have ht : (0 : K) < tiny := tiny_pos
  have p0 : 0 ≤ limPhi d qmin qmax beta := le_min (mul_nonneg g1 hb) zero_le_one
  refine ⟨p0, min_le_right _ _, fun i => ?_⟩
  have gi := g4 (d i) (List.mem_map.2 ⟨i, List.mem_finRange i, rfl⟩)
  constructor
  · intro hd
    have hneg : d i < 0 := by linarith
    have hp : limPhi d qmin qmax beta ≤ qmin / d i * beta :=
      (min_le_left _ _).trans (mul_le_mul_of_nonneg_right (gi.1 hd) hb)
    constructor
    · have : d i * (qmin / d i * beta) ≤ d i * limPhi d qmin qmax beta := mul_le_mul_of_nonpos_left hp hneg.le
      have e : d i * (qmin / d i * beta) = beta * qmin := by field_simp [hneg.ne]
      rw [e] at this
      exact this
    · exact mul_nonpos_of_nonpos_of_nonneg hneg.le p0
  · intro hd
    have hpos : 0 < d i := by linarith
    have hp : limPhi d qmin qmax beta ≤ qmax / d i * beta :=
      (min_le_left _ _).trans (mul_le_mul_of_nonneg_right (gi.2 hd) hb)
    constructor
    · have : d i * limPhi d qmin qmax beta ≤ d i * (qmax / d i * beta) := mul_le_mul_of_nonneg_left hp hpos.le
      have e : d i * (qmax / d i * beta) = beta * qmax := by field_simp [hpos.ne']
      rw [e] at this
      exact this
    · exact mul_nonneg hpos.le p0

theorem limit_bounds (d : Fin 3 → K) (qmin qmax beta : K) (h1 : qmin ≤ 0) (h2 : 0 ≤ qmax) (hb : 0 ≤ beta) (i : Fin 3) :
    beta * qmin - tiny ≤ limit d qmin qmax beta i ∧ limit d qmin qmax beta i ≤ beta * qmax + tiny := by
  obtain ⟨p0, p1, hi⟩ := limPhi_spec d qmin qmax beta h1 h2 hb
  have ht : (0 : K) < tiny := tiny_pos
  have m1 : beta * qmin ≤ 0 := mul_nonpos_of_nonneg_of_nonpos hb h1
  have m2 : 0 ≤ beta * qmax := mul_nonneg hb h2
  by_cases c1 : d i < -tiny
  · have := (hi i).1 c1; constructor <;> linarith
  · by_cases c2 : d i > tiny
    · have := (hi i).2 c2; constructor <;> linarith
    · push Not at c1 c2
      have e : limit d qmin qmax beta i = d i * limPhi d qmin qmax beta := rfl
      have a1 : d i * limPhi d qmin qmax beta ≤ tiny * 1 :=
        (mul_le_mul_of_nonneg_right c2 p0).trans (mul_le_mul_of_nonneg_left p1 ht.le)
      have a2 : -tiny * 1 ≤ d i * limPhi d qmin qmax beta := by
        have : -tiny * limPhi d qmin qmax beta ≤ d i * limPhi d qmin qmax beta := mul_le_mul_of_nonneg_right c1 p0
        have : tiny * limPhi d qmin qmax beta ≤ tiny * 1 := mul_le_mul_of_nonneg_left p1 ht.le
        linarith
      rw [e]
      constructor <;> linarith

theorem surr_near (G : Geo N K) (k : Fin N) (i : Fin 3) : Near G.nbr k (surr G (k, i)) := by
  unfold surr
  cases h : G.nbr (k, i) with
  | none => exact Or.inl rfl
  | some m => exact Or.inr ⟨i, m, h, rfl⟩

theorem nb_eq (G : Geo N K) (k : Fin N) : nb G k = boundaryEdges G.nbr k := by
  unfold nb boundaryEdges
  have : ∀ f : Fin 3 → Bool, (List.finRange 3).countP f = (Finset.univ.filter (fun i : Fin 3 => f i = true)).card := by
    decide
  rw [this]
  congr 1
  ext i
  simp [Option.isNone_iff_eq_none]

theorem nb_le (G : Geo N K) (k : Fin N) : nb G k ≤ 3 := by
  unfold nb
  exact (List.countP_le_length).trans (by simp)

theorem inner_spec (G : Geo N K) (k k1 : Fin N) (h : inner G k = some k1) : k1 ≠ k ∧ ∃ i m, G.nbr (k, i) = some m ∧ m.1 = k1 := by
  unfold inner at h
  have h1 := List.find?_some h
  have h2 := List.mem_of_find?_eq_some h
  rw [List.mem_map] at h2
  obtain ⟨i, _, hi⟩ := h2
  have hne : k1 ≠ k := by simpa using h1
  refine ⟨hne, i, ?_⟩
  unfold surr at hi
  cases hn : G.nbr (k, i) with
  | none => rw [hn] at hi; exact absurd hi.symm hne
  | some m => rw [hn] at hi; exact ⟨m, rfl, hi⟩

/-- The single neighbour of a corner triangle is always found. -/
theorem inner_isSome (G : Geo N K) (hN : NoSelf G.nbr) (k : Fin N) (h : nb G k < 3) : (inner G k).isSome := by
  by_contra hc
  rw [Option.not_isSome_iff_eq_none] at hc
  unfold inner at hc
  rw [List.find?_eq_none] at hc
  have : nb G k = 3 := by
    unfold nb
    have : ∀ f : Fin 3 → Bool, (∀ i, f i = true) → (List.finRange 3).countP f = 3 := by decide
    apply this
    intro i
    have hi := hc (surr G (k, i)) (List.mem_map.2 ⟨i, List.mem_finRange i, rfl⟩)
    have hi : surr G (k, i) = k := by simpa using hi
    unfold surr at hi
    cases hn : G.nbr (k, i) with
    | none => rfl
    | some m => rw [hn] at hi; exact absurd hi (hN _ _ hn)
  omega

theorem limit_zero (qmin qmax beta : K) (i : Fin 3) (d : Fin 3 → K) (hd : ∀ i, d i = 0) : limit d qmin qmax beta i = 0 := by
  unfold limit; rw [hd]; ring

/-- A quantity that is constant around `k` stays constant. -/
theorem extrap_const (G : Geo N K) (q : Fin N → K) (beta betaW : K) (k : Fin N) (i : Fin 3)
    (h : ∀ j, Near G.nbr k j → q j = q k) : extrap G q beta betaW k i = q k := by
  have hs : ∀ i, q (surr G (k, i)) = q k := fun i => h _ (surr_near G k i)
  have hj : ∀ i, jumps G q k i = 0 := by
    intro i
    unfold jumps
    simp only [hs]
    ring
  unfold extrap
  split_ifs
  · rfl
  · rfl
  · unfold extrapTypical
    split_ifs
    · simp only [limit_zero _ _ _ i (jumps G q k) hj, add_zero]
    · rfl
  · cases hin : inner G k with
    | none => rfl
    | some k1 =>
      obtain ⟨_, i', m, hm, hk1⟩ := inner_spec G k k1 hin
      have : q k1 = q k := h k1 (Or.inr ⟨i', m, hm, hk1⟩)
      simp only
      unfold extrapCorner
      simp only
      rw [limit_zero _ _ _ i _ (fun i => by rw [this]; ring), add_zero]

/-- First order where `beta` is not positive and the triangle is no corner. -/
theorem extrap_first (G : Geo N K) (q : Fin N → K) (beta betaW : K) (k : Fin N) (i : Fin 3) (hb : ¬ beta > 0)
    (hn : nb G k ≠ 2) : extrap G q beta betaW k i = q k := by
  unfold extrap
  split_ifs with h1 h2 h3
  · rfl
  · rfl
  · unfold extrapTypical; rw [if_neg hb]
  · have := nb_le G k; omega

theorem corner_unique (G : Geo N K) (k : Fin N) (h : nb G k = 2) {i i' : Fin 3} {m m' : Edge N} (h1 : G.nbr (k, i) = some m)
    (h2 : G.nbr (k, i') = some m') : i = i' := by
  by_contra hne
  rw [nb_eq] at h
  unfold boundaryEdges at h
  have hsub : (Finset.univ.filter (fun i : Fin 3 => G.nbr (k, i) = none)) ⊆ Finset.univ \ {i, i'} := by
    intro x hx
    rw [Finset.mem_filter] at hx
    rw [Finset.mem_sdiff, Finset.mem_insert, Finset.mem_singleton]
    refine ⟨Finset.mem_univ _, ?_⟩
    rintro (rfl | rfl)
    · rw [h1] at hx; simp at hx
    · rw [h2] at hx; simp at hx
  have hc := Finset.card_le_card hsub
  rw [Finset.card_sdiff_of_subset (Finset.subset_univ _), Finset.card_pair hne, Finset.card_univ, Fintype.card_fin] at hc
  omega

theorem limPhi_zero (d : Fin 3 → K) (qmin qmax beta : K) (h1 : qmin ≤ 0) (h2 : 0 ≤ qmax)
    (h : ∃ i, (d i < -tiny ∧ qmin = 0) ∨ (d i > tiny ∧ qmax = 0)) : limPhi d qmin qmax beta = 0 := by
  have ht : (0 : K) < tiny := tiny_pos
  have hle : ∀ (L : List K) (s : K × K), (s.1 ≤ 0 → (L.foldl (limStep qmin qmax) s).1 ≤ 0) ∧
      ((∃ x ∈ L, (x < -tiny ∧ qmin = 0) ∨ (x > tiny ∧ qmax = 0)) → (L.foldl (limStep qmin qmax) s).1 ≤ 0) := by
    intro L
    induction L with
    | nil => intro s; exact ⟨fun h => h, fun ⟨x, hx, _⟩ => by simp at hx⟩
    | cons y L ih =>
      intro s
      simp only [List.foldl_cons]
      refine ⟨fun hs => (ih _).1 ((min_le_right _ _).trans hs), ?_⟩
      rintro ⟨x, hx, hb⟩
      rcases List.mem_cons.1 hx with rfl | hx
      · refine (ih _).1 ((min_le_left _ _).trans ?_)
        rcases hb with ⟨hb, hq⟩ | ⟨hb, hq⟩
        · have : ¬ x > tiny := by intro h; linarith
          rw [if_neg this, if_pos hb, hq, zero_div]
        · rw [if_pos hb, hq, zero_div]
      · exact (ih _).2 ⟨x, hx, hb⟩
  have hge := (limFold qmin qmax h1 h2 ((List.finRange 3).map d) (1000, 1) ⟨by norm_num, by norm_num⟩).1
  have hz := (hle ((List.finRange 3).map d) (1000, 1)).2 (by
    obtain ⟨i, hi⟩ := h
    exact ⟨d i, List.mem_map.2 ⟨i, List.mem_finRange _, rfl⟩, hi⟩)
  unfold limPhi
  rw [le_antisymm hz hge, zero_mul]
  exact min_eq_left zero_le_one

theorem corner_const (G : Geo N K) (q : Fin N → K) (beta : K) (k k1 : Fin N) (i : Fin 3)
    (h : Resolved G k k1 (q k1 - q k)) : extrapCorner G q beta k k1 i = q k := by
  unfold extrapCorner
  simp only
  rcases h with h | ⟨i0, h⟩
  · rw [limit_zero _ _ _ i _ (fun i => by rw [h]; ring), add_zero]
  · unfold limit
    rw [limPhi_zero, mul_zero, add_zero]
    · split_ifs with hc
      · exact le_refl _
      · exact (not_le.1 hc).le
    · split_ifs with hc
      · exact hc
      · exact le_refl _
    · refine ⟨i0, ?_⟩
      have e : (q k1 - q k) * (1 / ((G.cx k1 - G.cx k) * (G.cx k1 - G.cx k) + (G.cy k1 - G.cy k) * (G.cy k1 - G.cy k)) *
          (G.cx k1 - G.cx k)) * (G.ex (k, i0) - G.cx k) + (q k1 - q k) * (1 / ((G.cx k1 - G.cx k) * (G.cx k1 - G.cx k) +
          (G.cy k1 - G.cy k) * (G.cy k1 - G.cy k)) * (G.cy k1 - G.cy k)) * (G.ey (k, i0) - G.cy k) =
          (q k1 - q k) * (((G.cx k1 - G.cx k) * (G.ex (k, i0) - G.cx k) + (G.cy k1 - G.cy k) * (G.ey (k, i0) - G.cy k)) /
            ((G.cx k1 - G.cx k) ^ 2 + (G.cy k1 - G.cy k) ^ 2)) := by
        rw [← pow_two, ← pow_two]; ring
      simp only [e]
      by_cases hc : q k1 - q k ≥ 0
      · rw [abs_of_nonneg hc] at h
        left
        exact ⟨h, by simp [hc]⟩
      · rw [abs_of_neg (not_le.1 hc)] at h
        right
        refine ⟨?_, by simp [hc]⟩
        unfold tiny
        linarith

theorem jumps_plane (G : Geo N K) (q : Fin N → K) (k : Fin N) (ha : area2 G k ≠ 0) :
    ∃ a b, Plane G q k a b ∧ ∀ i, jumps G q k i = a * (G.ex (k, i) - G.cx k) + b * (G.ey (k, i) - G.cy k) := by
  unfold jumps Plane
  refine ⟨_, _, ?_, fun i => rfl⟩
  have : ∀ i : Fin 3, i = 0 ∨ i = 1 ∨ i = 2 := by decide
  intro i
  rcases this i with rfl | rfl | rfl
  · ring
  · unfold area2 at *
    simp only at *
    field_simp
    ring
  · unfold area2 at *
    simp only at *
    field_simp
    ring

/-- A smallest value around `k` stays constant on `k`. -/
theorem extrap_min (G : Geo N K) (hC : Centred G) (q : Fin N → K) (hq : NoTiny G q) (beta betaW : K) (k : Fin N) (i : Fin 3)
    (hn : nb G k ≠ 2) (h : ∀ j, Near G.nbr k j → q k ≤ q j) : extrap G q beta betaW k i = q k := by
  unfold extrap
  split_ifs with h1 h2 h3
  · rfl
  · rfl
  · unfold extrapTypical
    split_ifs with h4
    · obtain ⟨a, b, hp, hj⟩ := jumps_plane G q k (ne_of_gt (not_le.1 h3))
      have hs : ∀ i, q k ≤ q (surr G (k, i)) := fun i => h _ (surr_near G k i)
      simp only
      have hm : (qMinMax (q (surr G (k, 0)) - q k) (q (surr G (k, 1)) - q (surr G (k, 0)))
        (q (surr G (k, 2)) - q (surr G (k, 0)))).1 = 0 := by
        unfold qMinMax
        simp only
        refine min_eq_right (le_min ?_ (le_min ?_ ?_))
        · linarith [hs 0]
        · linarith [hs 1]
        · linarith [hs 2]
      have hM : 0 ≤ (qMinMax (q (surr G (k, 0)) - q k) (q (surr G (k, 1)) - q (surr G (k, 0)))
        (q (surr G (k, 2)) - q (surr G (k, 0)))).2 := le_max_right _ _
      have hsum : jumps G q k 0 + jumps G q k 1 + jumps G q k 2 = 0 := by
        obtain ⟨c1, c2⟩ := hC k
        rw [Fin.sum_univ_three] at c1 c2
        rw [hj, hj, hj]
        linear_combination a * c1 + b * c2
      by_cases hz : ∃ i, jumps G q k i < -tiny
      · obtain ⟨i0, hi0⟩ := hz
        unfold limit
        rw [limPhi_zero _ _ _ _ (by rw [hm]) hM ⟨i0, Or.inl ⟨hi0, hm⟩⟩, mul_zero, add_zero]
      · have hnn : ∀ i, 0 ≤ jumps G q k i := by
          intro i
          rcases hq k a b hp i with h5 | h5
          · rw [hj]; exact h5
          · exact absurd ⟨i, by rw [hj]; exact h5⟩ hz
        have hzero : ∀ i, jumps G q k i = 0 := by
          have : ∀ i : Fin 3, i = 0 ∨ i = 1 ∨ i = 2 := by decide
          intro i
          rcases this i with rfl | rfl | rfl <;> linarith [hnn 0, hnn 1, hnn 2]
        rw [limit_zero _ _ _ _ _ hzero, add_zero]
    · rfl
  · have := nb_le G k; omega

/-- Values do not fall below a lower bound of the surroundings. -/
theorem extrap_ge (G : Geo N K) (q : Fin N → K) (hq : NoTiny G q) (beta betaW lo : K) (hb : beta ≤ 1) (k : Fin N) (i : Fin 3)
    (hn : nb G k ≠ 2) (h : ∀ j, Near G.nbr k j → lo ≤ q j) : lo ≤ extrap G q beta betaW k i := by
  have hk := h k (Or.inl rfl)
  unfold extrap
  split_ifs with h1 h2 h3
  · exact hk
  · exact hk
  · unfold extrapTypical
    split_ifs with h4
    · obtain ⟨a, b, hp, hj⟩ := jumps_plane G q k (ne_of_gt (not_le.1 h3))
      have hs : ∀ i, lo ≤ q (surr G (k, i)) := fun i => h _ (surr_near G k i)
      simp only
      generalize hm : qMinMax (q (surr G (k, 0)) - q k) (q (surr G (k, 1)) - q (surr G (k, 0)))
        (q (surr G (k, 2)) - q (surr G (k, 0))) = m
      have hsg : m.1 ≤ 0 ∧ 0 ≤ m.2 := by rw [← hm]; exact ⟨min_le_right _ _, le_max_right _ _⟩
      have hlo : lo - q k ≤ m.1 := by
        rw [← hm]
        unfold qMinMax
        refine le_min (le_min ?_ (le_min ?_ ?_)) ?_
        · linarith [hs 0]
        · linarith [hs 1]
        · linarith [hs 2]
        · linarith [hk]
      obtain ⟨p0, _, p2⟩ := limPhi_spec (jumps G q k) m.1 m.2 beta hsg.1 hsg.2 h4.le
      have a1 : m.1 ≤ beta * m.1 := by nlinarith [hsg.1]
      rcases hq k a b hp i with h5 | h5
      · rw [← hj] at h5
        unfold limit
        have := mul_nonneg h5 p0
        linarith
      · rw [← hj] at h5
        have := ((p2 i).1 h5).1
        linarith
    · exact hk
  · have := nb_le G k; omega

theorem hfactor_range (G : Geo N K) (p : Params K) (c : Cent N K) (k : Fin N) (hm : 0 < p.minH) :
    0 ≤ hfactor G p c k ∧ hfactor G p c k ≤ 1 := by
  unfold hfactor
  simp only
  constructor
  · apply le_min
    · apply div_nonneg
      · apply mul_nonneg (by norm_num) (le_max_right _ _)
      · have := le_max_right (min (min (height p c (surr G (k, 0))) (min (height p c (surr G (k, 1)))
          (height p c (surr G (k, 2))))) (height p c k)) (0 : K)
        linarith
    · exact le_max_left _ _
  · refine (min_le_right _ _).trans (max_le zero_le_one ?_)
    exact (min_le_right _ _).trans (min_le_right _ _)

/-- A positive `hfactor` means that `k` and all its neighbours are deeper than the minimum height. -/
theorem hfactor_pos (G : Geo N K) (p : Params K) (c : Cent N K) (k : Fin N) (hm : 0 < p.minH)
    (h : 0 < hfactor G p c k) : p.minH < height p c k ∧ ∀ i, p.minH < height p c (surr G (k, i)) := by
  unfold hfactor at h
  simp only at h
  have h1 := lt_of_lt_of_le h (min_le_left _ _)
  generalize hmin : min (min (height p c (surr G (k, 0))) (min (height p c (surr G (k, 1)))
    (height p c (surr G (k, 2))))) (height p c k) = mn at h1
  have hgt : p.minH < mn := by
    by_contra hc
    push Not at hc
    rw [max_eq_right (by linarith : mn - p.minH ≤ 0)] at h1
    simp at h1
  rw [← hmin] at hgt
  rw [lt_min_iff, lt_min_iff, lt_min_iff] at hgt
  refine ⟨hgt.2, fun i => ?_⟩
  have : ∀ i : Fin 3, i = 0 ∨ i = 1 ∨ i = 2 := by decide
  rcases this i with rfl | rfl | rfl
  · exact hgt.1.1
  · exact hgt.1.2.1
  · exact hgt.1.2.2

end Verif.Extrap
