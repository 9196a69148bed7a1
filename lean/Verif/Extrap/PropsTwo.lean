import Verif.Extrap.Props

/-!
# C15 depth protection, C45 reconstruction bounds, C46 reconstruction keeps cell averages, C48 serial and OpenMP distribution
-/

set_option linter.unusedSectionVars false

namespace Verif.Extrap

open Verif.Flux (Q3 Edge Dom)

variable {K : Type*} [Field K] [LinearOrder K] [IsStrictOrderedRing K] {N : ℕ}

/-! ## C15 -/

theorem protect_stage (minH : K) (area : Fin N → K) (c : Cent N K) (k : Fin N) :
    (protect minH area c).1.stage k = max (c.stage k) (c.bed k) ∨ minH ≤ c.stage k - c.bed k := by
  by_cases h : minH ≤ c.stage k - c.bed k
  · exact Or.inr h
  · left
    have h1 : c.stage k - c.bed k < minH := not_le.1 h
    simp only [protect, protectCell, h1, if_true]
    split_ifs with h2 h3
    · rw [max_eq_right h3.le]
    · rw [max_eq_left (not_lt.1 h3)]
    · rw [max_eq_left (by linarith [not_le.1 h2])]

/-- C15: afterwards no triangle has negative depth; triangles with water keep their level, the others are raised to the
bed. -/
theorem C15_depth (minH : K) (hm : 0 ≤ minH) (area : Fin N → K) (c : Cent N K) (k : Fin N) :
    (protect minH area c).1.bed k = c.bed k ∧ c.bed k ≤ (protect minH area c).1.stage k ∧
      (c.bed k ≤ c.stage k → (protect minH area c).1.stage k = c.stage k) ∧
      (c.stage k ≤ c.bed k → (protect minH area c).1.stage k = c.bed k) := by
  have key : (protect minH area c).1.stage k = max (c.stage k) (c.bed k) := by
    rcases protect_stage minH area c k with h | h
    · exact h
    · simp only [protect, protectCell, not_lt.2 h, if_false]
      rw [max_eq_left (by linarith)]
  refine ⟨rfl, ?_, ?_, ?_⟩
  · rw [key]; exact le_max_right _ _
  · intro h; rw [key, max_eq_left h]
  · intro h; rw [key, max_eq_right h]

/-- C15: momenta are removed exactly where the water is shallower than the minimum allowed height. -/
theorem C15_momentum (minH : K) (area : Fin N → K) (c : Cent N K) (k : Fin N) :
    (c.stage k - c.bed k < minH → (protect minH area c).1.xm k = 0 ∧ (protect minH area c).1.ym k = 0) ∧
    (minH ≤ c.stage k - c.bed k → (protect minH area c).1.xm k = c.xm k ∧ (protect minH area c).1.ym k = c.ym k) := by
  constructor
  · intro h
    simp only [protect, protectCell, h, if_true]
    split_ifs <;> exact ⟨rfl, rfl⟩
  · intro h
    simp only [protect, protectCell, not_lt.2 h, if_false]
    trivial

theorem foldl_add_sum (f : Fin N → K) : ∀ (L : List (Fin N)) (a : K), L.foldl (fun s k => s + f k) a = a + (L.map f).sum := by
  intro L
  induction L with
  | nil => intro a; simp
  | cons x xs ih => intro a; simp only [List.foldl_cons, ih, List.map_cons, List.sum_cons]; ring

theorem foldl_finRange (f : Fin N → K) : (List.finRange N).foldl (fun s k => s + f k) 0 = ∑ k, f k := by
  rw [foldl_add_sum, zero_add]
  exact (List.sum_ofFn (f := f) ▸ by rw [List.ofFn_eq_map])

/-- C15: the reported mass error is exactly the volume of water added, and never negative. -/
theorem C15_mass_error (minH : K) (hm : 0 ≤ minH) (area : Fin N → K) (c : Cent N K) :
    (protect minH area c).2 = ∑ k, area k * ((protect minH area c).1.stage k - c.stage k) ∧
      ((∀ k, 0 ≤ area k) → 0 ≤ (protect minH area c).2) := by
  have e : (protect minH area c).2 = ∑ k, area k * ((protect minH area c).1.stage k - c.stage k) := by
    have : (protect minH area c).2 =
      ∑ k, (protectCell minH (c.stage k) (c.bed k) (c.xm k) (c.ym k) (area k)).added := foldl_finRange _
    rw [this]
    refine Finset.sum_congr rfl (fun k _ => ?_)
    simp only [protect, protectCell]
    split_ifs <;> ring
  refine ⟨e, fun ha => ?_⟩
  rw [e]
  refine Finset.sum_nonneg (fun k _ => mul_nonneg (ha k) ?_)
  obtain ⟨_, h1, h2, h3⟩ := C15_depth minH hm area c k
  rcases le_total (c.bed k) (c.stage k) with h | h
  · rw [h2 h]; simp
  · rw [h3 h]; linarith

/-- C15: a second protection step changes nothing and reports no added mass. -/
theorem C15_idempotent (minH : K) (hm : 0 ≤ minH) (area : Fin N → K) (c : Cent N K) :
    (protect minH area (protect minH area c).1).1 = (protect minH area c).1 ∧
      (protect minH area (protect minH area c).1).2 = 0 := by
  set c1 := (protect minH area c).1 with hc1
  have hs : (protect minH area c1).1.stage = c1.stage := by
    funext k
    exact (C15_depth minH hm area c1 k).2.2.1 (C15_depth minH hm area c k).2.1
  have hmom : ∀ k, (protect minH area c1).1.xm k = c1.xm k ∧ (protect minH area c1).1.ym k = c1.ym k := by
    intro k
    by_cases h : c1.stage k - c1.bed k < minH
    · have a := (C15_momentum minH area c1 k).1 h
      have hc : c.stage k - c.bed k < minH := by
        by_contra hn
        have hn := not_lt.1 hn
        have : c1.stage k = c.stage k := (C15_depth minH hm area c k).2.2.1 (by linarith)
        have hb : c1.bed k = c.bed k := rfl
        rw [this, hb] at h
        linarith
      have b := (C15_momentum minH area c k).1 hc
      exact ⟨a.1.trans b.1.symm, a.2.trans b.2.symm⟩
    · exact (C15_momentum minH area c1 k).2 (not_lt.1 h)
  constructor
  · have h1 : (protect minH area c1).1.xm = c1.xm := funext fun k => (hmom k).1
    have h2 : (protect minH area c1).1.ym = c1.ym := funext fun k => (hmom k).2
    calc (protect minH area c1).1 = ⟨(protect minH area c1).1.stage, c1.bed, (protect minH area c1).1.xm,
            (protect minH area c1).1.ym, c1.h0⟩ := rfl
      _ = c1 := by rw [hs, h1, h2]
  · rw [(C15_mass_error minH hm area c1).1, hs]
    simp

/-- C15: the OpenMP version gives the same levels, x momenta and mass error. -/
theorem C15_openmp_stage (minH : K) (area : Fin N → K) (c : Cent N K) :
    (protectMp minH area c).1.stage = (protect minH area c).1.stage ∧
      (protectMp minH area c).1.xm = (protect minH area c).1.xm ∧ (protectMp minH area c).2 = (protect minH area c).2 := by
  refine ⟨?_, ?_, ?_⟩
  · funext k
    simp only [protectMp, protect, protectCellMp, protectCell]
    split_ifs <;> rfl
  · funext k
    simp only [protectMp, protect, protectCellMp, protectCell]
    split_ifs <;> rfl
  · simp only [protectMp, protect]
    congr 1
    funext s k
    simp only [protectCellMp, protectCell]
    split_ifs <;> rfl

/-- C15: but the OpenMP version leaves the y momentum of a dry triangle. -/
theorem C15_openmp_keeps_ymomentum : ∃ (c : Cent 1 ℚ), c.stage 0 < c.bed 0 ∧
    (protect (1 / 100000) (fun _ => 1) c).1.ym 0 = 0 ∧ (protectMp (1 / 100000) (fun _ => 1) c).1.ym 0 = 7 :=
  ⟨⟨fun _ => -1, fun _ => 0, fun _ => 3, fun _ => 7, fun _ => 0⟩, by decide +kernel⟩

/-- C15: after the update of conserved quantities, full triangles with negative depth are put on the bed without momentum,
nothing else changes, and the returned number counts them. -/
theorem C15_fix_negative (full : Fin N → Bool) (c : Cent N K) :
    (∀ k, (full k = true ∧ c.stage k < c.bed k → (fixNegative full c).1.stage k = c.bed k ∧
        (fixNegative full c).1.xm k = 0 ∧ (fixNegative full c).1.ym k = 0) ∧
      (¬ (full k = true ∧ c.stage k < c.bed k) → (fixNegative full c).1.stage k = c.stage k ∧
        (fixNegative full c).1.xm k = c.xm k ∧ (fixNegative full c).1.ym k = c.ym k)) ∧
    (fixNegative full c).1.bed = c.bed ∧
    (fixNegative full c).2 = (Finset.univ.filter (fun k => full k = true ∧ c.stage k < c.bed k)).card := by
  have hb : ∀ k, (decide (c.stage k - c.bed k < 0) && full k) = true ↔ full k = true ∧ c.stage k < c.bed k := by
    intro k
    rw [Bool.and_eq_true, decide_eq_true_iff, sub_neg, and_comm]
  refine ⟨fun k => ⟨fun h => ?_, fun h => ?_⟩, rfl, ?_⟩
  · simp only [fixNegative, (hb k).2 h, if_true]; trivial
  · have : ¬ (decide (c.stage k - c.bed k < 0) && full k) = true := fun h' => h ((hb k).1 h')
    simp only [fixNegative, this]; trivial
  · have key : ∀ (L : List (Fin N)) (n : ℕ), L.foldl (fun n k => if (decide (c.stage k - c.bed k < 0) && full k) = true then
        n + 1 else n) n = n + L.countP (fun k => decide (c.stage k - c.bed k < 0) && full k) := by
      intro L
      induction L with
      | nil => intro n; simp
      | cons x xs ih =>
        intro n
        simp only [List.foldl_cons]
        rw [ih, List.countP_cons]
        split_ifs <;> omega
    have e : (fixNegative full c).2 = 0 + (List.finRange N).countP (fun k => decide (c.stage k - c.bed k < 0) && full k) :=
      key _ _
    rw [e, zero_add, List.countP_eq_length_filter]
    have hn : ((List.finRange N).filter (fun k => decide (c.stage k - c.bed k < 0) && full k)).Nodup :=
      (List.nodup_finRange N).filter _
    rw [← List.toFinset_card_of_nodup hn]
    congr 1
    ext k
    simp only [List.mem_toFinset, List.mem_filter, List.mem_finRange, true_and, Finset.mem_filter, Finset.mem_univ]
    exact hb k

/-- The hypotheses are met by a state with a negative depth, a film and deep water. -/
example : (0 : ℚ) ≤ 1 / 10 ∧
    (protect (1 / 10 : ℚ) ![2, 3, 5] ⟨![-1, 1 / 20, 4], ![0, 0, 1], ![1, 2, 3], ![4, 5, 6], ![0, 0, 0]⟩).2 = 2 ∧
    (fixNegative ![true, true, true] (⟨![-1, 1 / 20, 4], ![0, 0, 1], ![1, 2, 3], ![4, 5, 6], ![0, 0, 0]⟩ : Cent 3 ℚ)).2 = 1 := by
  decide +kernel

/-! ## C45 -/

theorem qMinMax_sign (a b c : K) : (qMinMax a b c).1 ≤ 0 ∧ 0 ≤ (qMinMax a b c).2 := ⟨min_le_right _ _, le_max_right _ _⟩

/-- Range of one reconstructed quantity. -/
theorem extrap_bounds (G : Geo N K) (q : Fin N → K) (beta betaW lo hi : K) (hb : beta ≤ 1) (hw : 0 ≤ betaW ∧ betaW ≤ 1)
    (k : Fin N) (i : Fin 3) (h : ∀ j, Near G.nbr k j → lo ≤ q j ∧ q j ≤ hi) :
    lo - tiny ≤ extrap G q beta betaW k i ∧ extrap G q beta betaW k i ≤ hi + tiny := by
  have ht : (0 : K) < tiny := tiny_pos
  have hk := h k (Or.inl rfl)
  have hs : ∀ i, lo ≤ q (surr G (k, i)) ∧ q (surr G (k, i)) ≤ hi := fun i => h _ (surr_near G k i)
  have triv : lo - tiny ≤ q k ∧ q k ≤ hi + tiny := ⟨by linarith [hk.1], by linarith [hk.2]⟩
  unfold extrap
  split_ifs with h1 h2 h3
  · exact triv
  · exact triv
  · unfold extrapTypical
    split_ifs with h4
    · simp only
      generalize hm : qMinMax (q (surr G (k, 0)) - q k) (q (surr G (k, 1)) - q (surr G (k, 0)))
        (q (surr G (k, 2)) - q (surr G (k, 0))) = m
      have hsg : m.1 ≤ 0 ∧ 0 ≤ m.2 := by rw [← hm]; exact qMinMax_sign _ _ _
      have hlo : lo - q k ≤ m.1 := by
        rw [← hm]
        unfold qMinMax
        refine le_min (le_min ?_ (le_min ?_ ?_)) ?_
        · linarith [(hs 0).1]
        · linarith [(hs 1).1]
        · linarith [(hs 2).1]
        · linarith [hk.1]
      have hhi : m.2 ≤ hi - q k := by
        rw [← hm]
        unfold qMinMax
        refine max_le (max_le ?_ (max_le ?_ ?_)) ?_
        · linarith [(hs 0).2]
        · linarith [(hs 1).2]
        · linarith [(hs 2).2]
        · linarith [hk.2]
      have lb := limit_bounds (jumps G q k) m.1 m.2 beta hsg.1 hsg.2 h4.le i
      have a1 : m.1 ≤ beta * m.1 := by nlinarith [hsg.1]
      have a2 : beta * m.2 ≤ m.2 := by nlinarith [hsg.2]
      constructor <;> linarith [lb.1, lb.2]
    · exact triv
  · cases hin : inner G k with
    | none => exact triv
    | some k1 =>
      obtain ⟨_, i', m', hm', hk1⟩ := inner_spec G k k1 hin
      have h1' := h k1 (Or.inr ⟨i', m', hm', hk1⟩)
      simp only
      unfold extrapCorner
      simp only
      generalize hm : (if q k1 - q k ≥ 0 then ((0 : K), q k1 - q k) else (q k1 - q k, 0)) = m
      have hsg : m.1 ≤ 0 ∧ 0 ≤ m.2 ∧ lo - q k ≤ m.1 ∧ m.2 ≤ hi - q k := by
        rw [← hm]
        split_ifs with hc
        · exact ⟨le_refl _, hc, by simpa using hk.1, by linarith [h1'.2]⟩
        · exact ⟨(not_le.1 hc).le, le_refl _, by linarith [h1'.1], by simpa using hk.2⟩
      generalize (fun i => (q k1 - q k) * (1 / ((G.cx k1 - G.cx k) * (G.cx k1 - G.cx k) + (G.cy k1 - G.cy k) * (G.cy k1 - G.cy k)) *
        (G.cx k1 - G.cx k)) * (G.ex (k, i) - G.cx k) + (q k1 - q k) * (1 / ((G.cx k1 - G.cx k) * (G.cx k1 - G.cx k) +
        (G.cy k1 - G.cy k) * (G.cy k1 - G.cy k)) * (G.cy k1 - G.cy k)) * (G.ey (k, i) - G.cy k)) = d
      have lb := limit_bounds d m.1 m.2 betaW hsg.1 hsg.2.1 hw.1 i
      have a1 : m.1 ≤ betaW * m.1 := by nlinarith [hsg.1, hw.2]
      have a2 : betaW * m.2 ≤ m.2 := by nlinarith [hsg.2.1, hw.2]
      obtain ⟨_, _, s3, s4⟩ := hsg
      constructor <;> linarith [lb.1, lb.2]

theorem betaTmp_le (dry wet f : K) (h1 : dry ≤ 1) (h2 : wet ≤ 1) (hf : 0 ≤ f ∧ f ≤ 1) : betaTmp dry wet f ≤ 1 := by
  unfold betaTmp
  nlinarith [hf.1, hf.2]

/-- Limiter parameters of a scheme: none larger than one, the wet stage parameter not negative. -/
structure BetasOk (p : Params K) : Prop where
  w : 0 ≤ p.betaW ∧ p.betaW ≤ 1
  wDry : p.betaWDry ≤ 1
  uh : p.betaUh ≤ 1
  uhDry : p.betaUhDry ≤ 1
  vh : p.betaVh ≤ 1
  vhDry : p.betaVhDry ≤ 1
  minH : 0 < p.minH

/-- C45: reconstructed levels and depths at the edges of a triangle stay within the range of the triangle and its neighbours
(up to `1e-100`); so does the velocity that multiplies the depth to give the momentum. -/
theorem C45_edges_within_neighbour_range (G : Geo N K) (p : Params K) (c : Cent N K) (hp : BetasOk p) (e : Edge N)
    (lo hi : K) :
    ((∀ j, Near G.nbr e.1 j → lo ≤ c.stage j ∧ c.stage j ≤ hi) →
      lo - 1 / 10 ^ 100 ≤ (extrapolate G p c).stage e ∧ (extrapolate G p c).stage e ≤ hi + 1 / 10 ^ 100) ∧
    (p.vel = true → (∀ j, Near G.nbr e.1 j → lo ≤ max (c.stage j - c.bed j) 0 ∧ max (c.stage j - c.bed j) 0 ≤ hi) →
      lo - 1 / 10 ^ 100 ≤ (extrapolate G p c).height e ∧ (extrapolate G p c).height e ≤ hi + 1 / 10 ^ 100) ∧
    (extrapolate G p c).bed e = (extrapolate G p c).stage e - (extrapolate G p c).height e ∧
    (p.vel = true → lo ≤ 0 → 0 ≤ hi →
      (∀ j, Near G.nbr e.1 j → p.minH < c.stage j - c.bed j →
        lo * (c.stage j - c.bed j) ≤ c.xm j ∧ c.xm j ≤ hi * (c.stage j - c.bed j)) →
      ∃ u, (extrapolate G p c).xm e = u * (extrapolate G p c).height e ∧ lo - 1 / 10 ^ 100 ≤ u ∧ u ≤ hi + 1 / 10 ^ 100) ∧
    (p.vel = true → lo ≤ 0 → 0 ≤ hi →
      (∀ j, Near G.nbr e.1 j → p.minH < c.stage j - c.bed j →
        lo * (c.stage j - c.bed j) ≤ c.ym j ∧ c.ym j ≤ hi * (c.stage j - c.bed j)) →
      ∃ u, (extrapolate G p c).ym e = u * (extrapolate G p c).height e ∧ lo - 1 / 10 ^ 100 ≤ u ∧ u ≤ hi + 1 / 10 ^ 100) := by
  have hf := hfactor_range G p c e.1 hp.minH
  have hvel : ∀ m : Fin N → K, p.vel = true → lo ≤ 0 → 0 ≤ hi →
      (∀ j, Near G.nbr e.1 j → p.minH < c.stage j - c.bed j →
        lo * (c.stage j - c.bed j) ≤ m j ∧ m j ≤ hi * (c.stage j - c.bed j)) →
      ∀ j, Near G.nbr e.1 j → lo ≤ carried G p c m j ∧ carried G p c m j ≤ hi := by
    intro m hv h0 h1 h j hj
    unfold carried
    split_ifs with a b
    · exact ⟨h0, h1⟩
    · have hh : height p c j = max (c.stage j - c.bed j) 0 := by simp [height, hv]
      have hpos : 0 < height p c j := hp.minH.trans b
      have hd : 0 < c.stage j - c.bed j := by
        by_contra hn
        rw [hh, max_eq_right (not_lt.1 hn)] at hpos
        exact lt_irrefl _ hpos
      rw [hh, max_eq_left hd.le] at b ⊢
      obtain ⟨x1, x2⟩ := h j hj b
      rw [← div_eq_mul_one_div]
      exact ⟨(le_div_iff₀ hd).2 x1, (div_le_iff₀ hd).2 x2⟩
    · exact ⟨h0, h1⟩
  refine ⟨?_, ?_, rfl, ?_, ?_⟩
  · intro h
    exact extrap_bounds G c.stage _ p.betaW lo hi (betaTmp_le _ _ _ hp.wDry hp.w.2 hf) hp.w e.1 e.2 h
  · intro hv h
    refine extrap_bounds G (height p c) _ p.betaW lo hi (betaTmp_le _ _ _ hp.wDry hp.w.2 hf) hp.w e.1 e.2 ?_
    intro j hj
    simpa [height, hv] using h j hj
  · intro hv h0 h1 h
    refine ⟨extrap G (carried G p c c.xm) (betaTmp p.betaUhDry p.betaUh (hfactor G p c e.1)) p.betaW e.1 e.2, ?_, ?_⟩
    · simp only [extrapolate, hv, if_true]
    · exact extrap_bounds G _ _ p.betaW lo hi (betaTmp_le _ _ _ hp.uhDry hp.uh hf) hp.w e.1 e.2 (hvel c.xm hv h0 h1 h)
  · intro hv h0 h1 h
    refine ⟨extrap G (carried G p c c.ym) (betaTmp p.betaVhDry p.betaVh (hfactor G p c e.1)) p.betaW e.1 e.2, ?_, ?_⟩
    · simp only [extrapolate, hv, if_true]
    · exact extrap_bounds G _ _ p.betaW lo hi (betaTmp_le _ _ _ hp.vhDry hp.vh hf) hp.w e.1 e.2 (hvel c.ym hv h0 h1 h)

/-! ## C46 -/

theorem jumps_linear (G : Geo N K) (q : Fin N → K) (k : Fin N) :
    ∃ a b, ∀ i, jumps G q k i = a * (G.ex (k, i) - G.cx k) + b * (G.ey (k, i) - G.cy k) := by
  unfold jumps
  exact ⟨_, _, fun i => rfl⟩

theorem corner_linear (G : Geo N K) (q : Fin N → K) (beta : K) (k k1 : Fin N) :
    ∃ a b, ∀ i, extrapCorner G q beta k k1 i = q k + (a * (G.ex (k, i) - G.cx k) + b * (G.ey (k, i) - G.cy k)) := by
  unfold extrapCorner limit
  simp only
  generalize limPhi (K := K) _ _ _ _ = phi
  exact ⟨phi * ((q k1 - q k) * (1 / ((G.cx k1 - G.cx k) * (G.cx k1 - G.cx k) + (G.cy k1 - G.cy k) * (G.cy k1 - G.cy k)) *
    (G.cx k1 - G.cx k))), phi * ((q k1 - q k) * (1 / ((G.cx k1 - G.cx k) * (G.cx k1 - G.cx k) +
    (G.cy k1 - G.cy k) * (G.cy k1 - G.cy k)) * (G.cy k1 - G.cy k))), fun i => by ring⟩

/-- Every reconstruction is the centroid value plus a linear function of the offset from the centroid. -/
theorem extrap_linear (G : Geo N K) (q : Fin N → K) (beta betaW : K) (k : Fin N) :
    ∃ a b, ∀ i, extrap G q beta betaW k i = q k + (a * (G.ex (k, i) - G.cx k) + b * (G.ey (k, i) - G.cy k)) := by
  unfold extrap
  split_ifs with h1 h2 h3
  · exact ⟨0, 0, fun i => by ring⟩
  · exact ⟨0, 0, fun i => by ring⟩
  · unfold extrapTypical
    split_ifs with h4
    · obtain ⟨a, b, h⟩ := jumps_linear G q k
      simp only [limit]
      generalize limPhi (K := K) _ _ _ _ = phi
      exact ⟨phi * a, phi * b, fun i => by rw [h]; ring⟩
    · exact ⟨0, 0, fun i => by ring⟩
  · cases inner G k with
    | none => exact ⟨0, 0, fun i => by ring⟩
    | some k1 => exact corner_linear G q betaW k k1

theorem extrap_mean (G : Geo N K) (hC : Centred G) (q : Fin N → K) (beta betaW : K) (k : Fin N) :
    (∑ i, extrap G q beta betaW k i) = 3 * q k := by
  obtain ⟨a, b, h⟩ := extrap_linear G q beta betaW k
  obtain ⟨c1, c2⟩ := hC k
  simp only [h]
  rw [Fin.sum_univ_three] at c1 c2 ⊢
  linear_combination a * c1 + b * c2

/-- C46: reconstruction keeps cell averages of level and depth, hence of the bed it implies; in triangles with water the
implied bed average is the given bed. -/
theorem C46_averages_kept (G : Geo N K) (hC : Centred G) (p : Params K) (c : Cent N K) (hv : p.vel = true) (k : Fin N) :
    (∑ i, (extrapolate G p c).stage (k, i)) = 3 * c.stage k ∧
    (∑ i, (extrapolate G p c).height (k, i)) = 3 * max (c.stage k - c.bed k) 0 ∧
    (c.bed k ≤ c.stage k → (∑ i, (extrapolate G p c).bed (k, i)) = 3 * c.bed k) := by
  have h1 : (∑ i, (extrapolate G p c).stage (k, i)) = 3 * c.stage k := extrap_mean G hC _ _ _ k
  have h2 : (∑ i, (extrapolate G p c).height (k, i)) = 3 * max (c.stage k - c.bed k) 0 := by
    have := extrap_mean G hC (height p c) (betaTmp p.betaWDry p.betaW (hfactor G p c k)) p.betaW k
    have e : height p c k = max (c.stage k - c.bed k) 0 := by simp [height, hv]
    rw [← e]
    exact this
  refine ⟨h1, h2, fun hb => ?_⟩
  have : (∑ i, (extrapolate G p c).bed (k, i)) =
      (∑ i, (extrapolate G p c).stage (k, i)) - ∑ i, (extrapolate G p c).height (k, i) := by
    rw [← Finset.sum_sub_distrib]; rfl
  rw [this, h1, h2, max_eq_left (by linarith)]
  ring

/-- With momenta (not velocities) extrapolated, their averages are kept too. -/
theorem C46_momentum_averages_kept (G : Geo N K) (hC : Centred G) (p : Params K) (c : Cent N K) (hv : p.vel = false)
    (k : Fin N) (hi : isolated G p c k = false) :
    (∑ i, (extrapolate G p c).xm (k, i)) = 3 * c.xm k ∧ (∑ i, (extrapolate G p c).ym (k, i)) = 3 * c.ym k := by
  constructor
  · have := extrap_mean G hC (carried G p c c.xm) (betaTmp p.betaUhDry p.betaUh (hfactor G p c k)) p.betaW k
    simpa [extrapolate, hv, carried, hi] using this
  · have := extrap_mean G hC (carried G p c c.ym) (betaTmp p.betaVhDry p.betaVh (hfactor G p c k)) p.betaW k
    simpa [extrapolate, hv, carried, hi] using this

theorem limFold_one (qmin qmax : K) (L : List K) (s : K × K) (hs : 1 ≤ s.1 ∧ 1 ≤ s.2)
    (h : ∀ d ∈ L, qmin ≤ d ∧ d ≤ qmax) : 1 ≤ (L.foldl (limStep qmin qmax) s).1 := by
  induction L generalizing s with
  | nil => exact hs.1
  | cons d L ih =>
    have ht : (0 : K) < tiny := tiny_pos
    refine ih _ ?_ (fun x hx => h x (List.mem_cons_of_mem _ hx))
    obtain ⟨h1, h2⟩ := h d List.mem_cons_self
    unfold limStep
    simp only
    have ha : 1 ≤ (if d < -tiny then qmin / d else s.2) := by
      split_ifs with hc
      · have hneg : d < 0 := by linarith
        rw [le_div_iff_of_neg hneg]; linarith
      · exact hs.2
    have hb : 1 ≤ (if d > tiny then qmax / d else (if d < -tiny then qmin / d else s.2)) := by
      split_ifs with hc hc2
      · have hpos : 0 < d := by linarith
        rw [le_div_iff₀ hpos]; linarith
      · rw [if_pos hc2] at ha; exact ha
      · exact hs.2
    exact ⟨le_min hb hs.1, hb⟩

/-- C46: on a triangle with at most one boundary edge, reconstruction of linear data is exact when the edge values lie within
the range of the surrounding values and the limiter parameter is at least one. -/
theorem C46_exact_for_planes (G : Geo N K) (q : Fin N → K) (beta betaW α γ δ : K) (hb : 1 ≤ beta) (k : Fin N)
    (hn : boundaryEdges G.nbr k ≤ 1) (ha : 0 < area2 G k)
    (hq : ∀ j, Near G.nbr k j → q j = α + γ * G.cx j + δ * G.cy j)
    (hr : ∀ i, (∃ j, Near G.nbr k j ∧ q j ≤ α + γ * G.ex (k, i) + δ * G.ey (k, i)) ∧
      (∃ j, Near G.nbr k j ∧ α + γ * G.ex (k, i) + δ * G.ey (k, i) ≤ q j)) (i : Fin 3) :
    extrap G q beta betaW k i = α + γ * G.ex (k, i) + δ * G.ey (k, i) := by
  have hqk := hq k (Or.inl rfl)
  have hqs : ∀ i, q (surr G (k, i)) = α + γ * G.cx (surr G (k, i)) + δ * G.cy (surr G (k, i)) := fun i => hq _ (surr_near G k i)
  have hj : ∀ i, jumps G q k i = γ * (G.ex (k, i) - G.cx k) + δ * (G.ey (k, i) - G.cy k) := by
    intro i
    have hne := ha.ne'
    unfold area2 at hne
    simp only at hne
    unfold jumps area2
    simp only [hqs]
    field_simp
    ring
  have hnear : ∀ j, Near G.nbr k j → j = k ∨ ∃ i, surr G (k, i) = j := by
    rintro j (h | ⟨i, m, h1, h2⟩)
    · exact Or.inl h
    · exact Or.inr ⟨i, by unfold surr; rw [h1]; exact h2⟩
  unfold extrap
  rw [if_neg (by rw [nb_eq]; omega), if_pos (by rw [nb_eq]; omega), if_neg (not_le.2 ha)]
  unfold extrapTypical
  rw [if_pos (lt_of_lt_of_le zero_lt_one hb)]
  simp only
  generalize hm : qMinMax (q (surr G (k, 0)) - q k) (q (surr G (k, 1)) - q (surr G (k, 0)))
    (q (surr G (k, 2)) - q (surr G (k, 0))) = m
  have hlow : ∀ i, m.1 ≤ q (surr G (k, i)) - q k ∧ q (surr G (k, i)) - q k ≤ m.2 := by
    intro i
    rw [← hm]
    unfold qMinMax
    simp only
    have : ∀ i : Fin 3, i = 0 ∨ i = 1 ∨ i = 2 := by decide
    rcases this i with rfl | rfl | rfl
    · exact ⟨(min_le_left _ _).trans (min_le_left _ _), (le_max_left _ _).trans (le_max_left _ _)⟩
    · refine ⟨(min_le_left _ _).trans ((min_le_right _ _).trans ((min_le_left _ _).trans (by linarith))), ?_⟩
      refine le_trans ?_ (le_max_left _ _)
      refine le_trans ?_ (le_max_right _ _)
      refine le_trans ?_ (le_max_left _ _)
      linarith
    · refine ⟨(min_le_left _ _).trans ((min_le_right _ _).trans ((min_le_right _ _).trans (by linarith))), ?_⟩
      refine le_trans ?_ (le_max_left _ _)
      refine le_trans ?_ (le_max_right _ _)
      refine le_trans ?_ (le_max_right _ _)
      linarith
  have hsg : m.1 ≤ 0 ∧ 0 ≤ m.2 := by rw [← hm]; exact qMinMax_sign _ _ _
  have hlow' : ∀ j, Near G.nbr k j → m.1 ≤ q j - q k ∧ q j - q k ≤ m.2 := by
    intro j hj
    rcases hnear j hj with h | ⟨i, h⟩
    · rw [h, sub_self]; exact hsg
    · rw [← h]; exact hlow i
  have hphi : limPhi (jumps G q k) m.1 m.2 beta = 1 := by
    unfold limPhi
    have h1 := limFold_one m.1 m.2 ((List.finRange 3).map (jumps G q k)) (1000, 1) ⟨by norm_num, by norm_num⟩ (by
      intro d hd
      rw [List.mem_map] at hd
      obtain ⟨i, _, rfl⟩ := hd
      obtain ⟨⟨j1, n1, l1⟩, ⟨j2, n2, l2⟩⟩ := hr i
      have a1 := hlow' j1 n1
      have a2 := hlow' j2 n2
      rw [hj]
      constructor <;> linarith [a1.1, a2.2])
    rw [min_eq_right]
    nlinarith [h1]
  unfold limit
  rw [hphi, hj, hqk]
  ring

end Verif.Extrap
