import Verif.Bdry.PropsEval
import Mathlib.Algebra.Order.Archimedean.Basic
import Mathlib.Algebra.BigOperators.Group.List.Basic

/-! C56: what each boundary condition imposes at an edge. -/

set_option linter.unusedSectionVars false

namespace Verif.Bdry

variable {K : Type*} [Field K] [LinearOrder K] [IsStrictOrderedRing K]

/-- C56: a reflective wall keeps stage, bed, depth and the momentum along the wall and reverses the
momentum across it. -/
theorem C56_reflective (p : Par K) (d : Dom K) (ids : List ℕ) (i : ℕ) (hi : i ∈ ids)
    (hn : Unit2 (d.normal (d.cells i) (d.edges i))) :
    ∃ d1, evaluateSegment p .reflective ids d = .ok d1 ∧
      d1.bv .stage i = d.edge .stage (d.cells i) (d.edges i) ∧
      d1.bv .elev i = d.edge .elev (d.cells i) (d.edges i) ∧
      d1.bv .height i = d.edge .height (d.cells i) (d.edges i) ∧
      along (d.normal (d.cells i) (d.edges i)) (d1.bv .xmom i) (d1.bv .ymom i) =
        -along (d.normal (d.cells i) (d.edges i)) (d.edge .xmom (d.cells i) (d.edges i))
          (d.edge .ymom (d.cells i) (d.edges i)) ∧
      across (d.normal (d.cells i) (d.edges i)) (d1.bv .xmom i) (d1.bv .ymom i) =
        across (d.normal (d.cells i) (d.edges i)) (d.edge .xmom (d.cells i) (d.edges i))
          (d.edge .ymom (d.cells i) (d.edges i)) := by
  refine ⟨_, rfl, ?_⟩
  simp only [reflectiveSegment, put_bv, Dom.copyEdge, hi, and_true, reduceCtorEq, if_false,
    if_true, put_edge, put_cells, put_edges, along, across]
  unfold Unit2 at hn
  generalize d.normal (d.cells i) (d.edges i) = n at *
  generalize d.edge .xmom (d.cells i) (d.edges i) = x
  generalize d.edge .ymom (d.cells i) (d.edges i) = y
  refine ⟨trivial, trivial, trivial, ?_, ?_⟩
  · linear_combination (-(n.1 * x + n.2 * y)) * hn
  · linear_combination (n.1 * y - n.2 * x) * hn

/-- C56, disagreement: the velocities stored at a reflective wall are reflected the other way round:
the component across the wall is kept and the one along the wall reversed. -/
theorem C56_reflective_velocity (p : Par K) (d : Dom K) (ids : List ℕ) (i : ℕ) (hi : i ∈ ids)
    (hn : Unit2 (d.normal (d.cells i) (d.edges i))) :
    ∃ d1, evaluateSegment p .reflective ids d = .ok d1 ∧
      along (d.normal (d.cells i) (d.edges i)) (d1.bv .xvel i) (d1.bv .yvel i) =
        along (d.normal (d.cells i) (d.edges i)) (d.edge .xvel (d.cells i) (d.edges i))
          (d.edge .yvel (d.cells i) (d.edges i)) ∧
      across (d.normal (d.cells i) (d.edges i)) (d1.bv .xvel i) (d1.bv .yvel i) =
        -across (d.normal (d.cells i) (d.edges i)) (d.edge .xvel (d.cells i) (d.edges i))
          (d.edge .yvel (d.cells i) (d.edges i)) := by
  refine ⟨_, rfl, ?_⟩
  simp only [reflectiveSegment, put_bv, Dom.copyEdge, hi, and_true, reduceCtorEq, if_false,
    if_true, put_edge, put_cells, put_edges, along, across]
  unfold Unit2 at hn
  generalize d.normal (d.cells i) (d.edges i) = n at *
  generalize d.edge .xvel (d.cells i) (d.edges i) = x
  generalize d.edge .yvel (d.cells i) (d.edges i) = y
  refine ⟨?_, ?_⟩
  · linear_combination (n.1 * x + n.2 * y) * hn
  · linear_combination (-(n.1 * y - n.2 * x)) * hn

/-- C56: `Transmissive_n_momentum_zero_t_momentum_set_stage_boundary` sets the stage to the function
value, or to the default value once the function has run out, keeps the momentum across the boundary
and removes the one along it; a function called too early is an error. -/
theorem C56_n_momentum (p : Par K) (f : K → Except Err K) (dflt : Option K) (d : Dom K)
    (ids : List ℕ) (i : ℕ) (hi : i ∈ ids) (hn : Unit2 (d.normal (d.cells i) (d.edges i))) (x : K)
    (hx : f d.time = .ok x ∨ (f d.time = .error .tooLate ∧ dflt = some x)) :
    ∃ d1, evaluateSegment p (.nMomentum f dflt) ids d = .ok d1 ∧ d1.bv .stage i = x ∧
      along (d.normal (d.cells i) (d.edges i)) (d1.bv .xmom i) (d1.bv .ymom i) =
        along (d.normal (d.cells i) (d.edges i)) (d.edge .xmom (d.cells i) (d.edges i))
          (d.edge .ymom (d.cells i) (d.edges i)) ∧
      across (d.normal (d.cells i) (d.edges i)) (d1.bv .xmom i) (d1.bv .ymom i) = 0 := by
  have hv : boundaryValue f dflt d.time = .ok x := by
    unfold boundaryValue
    rcases hx with h | ⟨h, rfl⟩ <;> rw [h]
  refine ⟨nMomentumSegment x ids d, by
    simp [evaluateSegment, hv, bind, Except.bind, pure, Except.pure], ?_⟩
  simp only [nMomentumSegment, put_bv, hi, and_true, reduceCtorEq, if_false, if_true, along,
    across]
  unfold Unit2 at hn
  generalize d.normal (d.cells i) (d.edges i) = n at *
  generalize d.edge .xmom (d.cells i) (d.edges i) = a
  generalize d.edge .ymom (d.cells i) (d.edges i) = b
  refine ⟨trivial, ?_, ?_⟩
  · linear_combination (n.1 * a + n.2 * b) * hn
  · ring

/-- C56: errors of the user function other than running out of data are never hidden by a default. -/
theorem C56_default_only_late {α : Type*} (f : K → Except Err α) (dflt : Option α) (t : K) :
    (∀ e, f t = .error e → (e ≠ .tooLate ∨ dflt = none) → boundaryValue f dflt t = .error e) ∧
    (∀ x, f t = .ok x → boundaryValue f dflt t = .ok x) := by
  constructor
  · intro e he h
    unfold boundaryValue
    rw [he]
    cases e <;> simp at h ⊢
    rw [h]
  · intro x hx
    unfold boundaryValue
    rw [hx]

/-- C56: `Transmissive_momentum_set_stage_boundary`, `Transmissive_stage_zero_momentum_boundary`,
`Transmissive_boundary` and `Dirichlet_discharge_boundary` at one edge. -/
theorem C56_simple (p : Par K) (d : Dom K) (hd : ShallowWater d) (v e : ℕ) :
    (∀ f x, f d.time = .ok x → evaluate p d (.setStage f) v e =
      .ok [x, d.edge .xmom v e, d.edge .ymom v e]) ∧
    evaluate p d .stageZero v e = .ok [d.edge .stage v e, 0, 0] ∧
    (d.centroidTransmissive = false → evaluate p d .transmissive v e =
      .ok [d.edge .stage v e, d.edge .xmom v e, d.edge .ymom v e]) ∧
    (d.centroidTransmissive = true → evaluate p d .transmissive v e =
      .ok [d.cent .stage v, d.cent .xmom v, d.cent .ymom v]) ∧
    (∀ s w, Unit2 (d.normal v e) → ∃ x y, evaluate p d (.discharge s w) v e = .ok [s, x, y] ∧
      along (d.normal v e) x y = -w ∧ across (d.normal v e) x y = 0) ∧
    (∀ mean B a x y, evaluate p d B v e = .ok [a, x, y] →
      evaluate p d (.field mean B) v e = .ok [a + mean, x, y]) := by
  refine ⟨?_, ?_, ?_, ?_, ?_, ?_⟩
  · intro f x hf
    simp [evaluate, hf, Except.map, Dom.conservedAt, hd.1]
  · simp [evaluate, Dom.conservedAt, hd.1]
  · intro h; simp [evaluate, h, Dom.conservedAt, hd.1]
  · intro h; simp [evaluate, h, Dom.conservedCent, hd.1]
  · intro s w hn
    refine ⟨_, _, rfl, ?_, ?_⟩
    · unfold along; unfold Unit2 at hn
      linear_combination (-w) * hn
    · unfold across; ring
  · intro mean B a x y h
    simp [evaluate, h, Except.map, addMean, hd.1]

/-- C56: conditions read from a function of time and place, or from a file, give the value at the
model time and at the midpoint (or the file's point) of the edge; the default condition takes over
exactly when the series has ended, and an edge unknown to the file is an error. -/
theorem C56_series (p : Par K) (d : Dom K) (v e : ℕ) (B : BC K)
    (f : K → K → K → Except Err (List K)) (index : ℕ → ℕ → Option ℕ)
    (F : K → ℕ → Except Err (List K)) :
    evaluate p d (.timeSpace f) v e = f d.time (d.mid v e).1 (d.mid v e).2 ∧
    (f d.time (d.mid v e).1 (d.mid v e).2 = .error .tooLate →
      evaluate p d (.timeSpaceOr f B) v e = evaluate p d B v e) ∧
    (f d.time (d.mid v e).1 (d.mid v e).2 ≠ .error .tooLate →
      evaluate p d (.timeSpaceOr f B) v e = f d.time (d.mid v e).1 (d.mid v e).2) ∧
    (∀ k, index v e = some k → evaluate p d (.file index F) v e = F d.time k ∧
      (F d.time k = .error .tooLate → evaluate p d (.fileOr index F B) v e = evaluate p d B v e) ∧
      (F d.time k ≠ .error .tooLate → evaluate p d (.fileOr index F B) v e = F d.time k)) ∧
    (index v e = none → evaluate p d (.file index F) v e = .error .index ∧
      evaluate p d (.fileOr index F B) v e = .error .index) := by
  refine ⟨rfl, ?_, ?_, ?_, ?_⟩
  · intro h; simp only [evaluate, h]
  · intro h
    simp only [evaluate]
    cases hf : f d.time (d.mid v e).1 (d.mid v e).2 with
    | ok q => rfl
    | error x => cases x <;> first | rfl | exact absurd hf h
  · intro k hk
    refine ⟨by simp only [evaluate, hk], ?_, ?_⟩
    · intro h; simp only [evaluate, hk, h]
    · intro h
      simp only [evaluate, hk]
      cases hf : F d.time k with
      | ok q => rfl
      | error x => cases x <;> first | rfl | exact absurd hf h
  · intro h; simp only [evaluate, h]; exact ⟨trivial, trivial⟩

/-- C56: a series with its default, followed through `update_boundary`'s vectorised call: the time
condition gives all listed edges the value at the model time. -/
theorem C56_time (p : Par K) (d : Dom K) (hd : ShallowWater d) (ids : List ℕ)
    (f : K → Except Err (List K)) (dflt : Option (List K)) (a b c : K)
    (h : f d.time = .ok [a, b, c] ∨ f d.time = .error .tooLate ∧ dflt = some [a, b, c]) :
    ∃ d1, evaluateSegment p (.time f dflt) ids d = .ok d1 ∧ ∀ i ∈ ids,
      d1.bv .stage i = a ∧ d1.bv .xmom i = b ∧ d1.bv .ymom i = c := by
  have hv : boundaryValue f dflt d.time = .ok [a, b, c] := by
    unfold boundaryValue
    rcases h with h | ⟨h, rfl⟩ <;> rw [h]
  refine ⟨_, by simp [evaluateSegment, hv, bind, Except.bind, vectorSegment, hd.2,
    Dom.putVector]; rfl, ?_⟩
  intro i hi
  simp [put_bv, hi]

/-- C56: rolling over.  With a time series that ends at `T > 0` the stage function is called at
`t - n T` with the smallest `n` that brings the time to at most `T`; so the time used lies in
`(0, T]` when `t > T`, and is `t` itself otherwise. -/
theorem C56_roll_over [Archimedean K] {α : Type*} (T : K) (hT : 0 < T) (f : K → Except Err α)
    (t : K) :
    ∃ n : ℕ, rolled T f t = f (t - n * T) ∧ t - n * T ≤ T ∧ (T < t → 0 < t - n * T) ∧
      (t ≤ T → n = 0) := by
  have hdet : ∀ n m t x y, rollN T n t = some x → rollN T m t = some y → x = y := by
    intro n
    induction n with
    | zero => intro m t x y h; simp [rollN] at h
    | succ n ih =>
      intro m t x y h h'
      cases m with
      | zero => simp [rollN] at h'
      | succ m =>
        rw [rollN] at h h'
        by_cases hlt : T < t
        · rw [if_pos hlt] at h h'; exact ih m _ x y h h'
        · rw [if_neg hlt] at h h'; rw [h] at h'; simpa using h'
  have hex : ∀ k : ℕ, ∀ t : K, t ≤ (k + 1) * T →
      ∃ n : ℕ, (∃ m, rollN T m t = some (t - n * T)) ∧ t - n * T ≤ T ∧
        (T < t → 0 < t - n * T) ∧ (t ≤ T → n = 0) := by
    intro k
    induction k with
    | zero =>
      intro t ht
      have ht' : t ≤ T := by simpa using ht
      refine ⟨0, ⟨1, by simp [rollN, not_lt.2 ht']⟩, by simpa using ht',
        fun h => (not_lt.2 ht' h).elim, fun _ => rfl⟩
    | succ k ih =>
      intro t ht
      by_cases hlt : T < t
      · obtain ⟨n, ⟨m, hm⟩, h1, h2, h3⟩ := ih (t - T) (by push_cast at ht; linarith)
        refine ⟨n + 1, ⟨m + 1, ?_⟩, ?_, ?_, fun h => (not_lt.2 h hlt).elim⟩
        · rw [rollN, if_pos hlt, hm]; push_cast; congr 1; ring
        · push_cast; linarith
        · intro _
          by_cases hlt' : T < t - T
          · have := h2 hlt'; push_cast; linarith
          · rw [h3 (not_lt.1 hlt')]; push_cast; linarith
      · have ht' := not_lt.1 hlt
        exact ⟨0, ⟨1, by simp [rollN, hlt]⟩, by simpa using ht', fun h => (hlt h).elim,
          fun _ => rfl⟩
  obtain ⟨k, hk⟩ := exists_nat_ge (t / T)
  have hk' : t ≤ (k + 1) * T := by
    have := (div_le_iff₀ hT).1 hk
    linarith
  obtain ⟨n, ⟨m, hm⟩, h1, h2, h3⟩ := hex k t hk'
  refine ⟨n, ?_, h1, h2, h3⟩
  unfold rolled
  have hE : ∃ n t', rollN T n t = some t' := ⟨m, _, hm⟩
  rw [dif_pos hE]
  congr 1
  exact hdet _ _ _ _ _ hE.choose_spec.choose_spec hm

/-- C56, disagreement: with a time series that ends at or before time zero the roll-over never
ends once model time has passed it. -/
theorem C56_roll_over_diverges {α : Type*} (T : K) (hT : T ≤ 0) (f : K → Except Err α) (t : K)
    (ht : T < t) : rolled T f t = .error .diverges := by
  have : ∀ n t, T < t → rollN T n t = none := by
    intro n
    induction n with
    | zero => intro t _; rfl
    | succ n ih => intro t ht; rw [rollN, if_pos ht]; exact ih _ (by linarith)
  unfold rolled
  rw [dif_neg]
  rintro ⟨n, t', h⟩
  rw [this n t ht] at h
  cases h

/-! ### Characteristic conditions -/

/-- Square root of non-negative numbers. -/
def IsSqrt (s : K → K) : Prop := ∀ x, 0 ≤ x → 0 ≤ s x ∧ s x ^ 2 = x

theorem IsSqrt.eq {s : K → K} (hs : IsSqrt s) (x y : K) (hy : 0 ≤ y) (h : y ^ 2 = x) : s x = y := by
  have hx : 0 ≤ x := h ▸ sq_nonneg y
  obtain ⟨h1, h2⟩ := hs x hx
  rw [← h] at h2 ⊢
  exact (pow_left_inj₀ (h ▸ h1) hy two_ne_zero).1 h2

theorem IsSqrt.pos {s : K → K} (hs : IsSqrt s) (x : K) (hx : 0 < x) : 0 < s x := by
  obtain ⟨h1, h2⟩ := hs x hx.le
  rcases h1.lt_or_eq with h | h
  · exact h
  · rw [← h] at h2; simp at h2; exact (hx.ne h2).elim

/-- C56: the characteristic stage condition imposes a state `(h, u)` joined to the inside state by
the outgoing Riemann invariant `u + 2 √(g h)` and to still water of the outside stage by the
incoming one `u - 2 √(g h)`; the momentum along the boundary is kept on outflow and zero on inflow;
a dry side gives the outside stage without momentum.  (`hsub`: the flow is not a supercritical
inflow, so that the state in between exists.) -/
theorem C56_characteristic (p : Par K) (hs : IsSqrt p.sqrt) (hg : 0 < p.g) (f : K → Except Err K)
    (d : Dom K) (ids : List ℕ) (i : ℕ) (hi : i ∈ ids) (out : K) (hf : f d.time = .ok out)
    (hn : Unit2 (d.normal (d.cells i) (d.edges i))) :
    let n := d.normal (d.cells i) (d.edges i)
    let z := d.edge .elev (d.cells i) (d.edges i)
    let w := d.edge .stage (d.cells i) (d.edges i)
    let un := along n (d.edge .xmom (d.cells i) (d.edges i)) (d.edge .ymom (d.cells i) (d.edges i))
    let ut := across n (d.edge .xmom (d.cells i) (d.edges i)) (d.edge .ymom (d.cells i) (d.edges i))
    ∃ d1, evaluateSegment p (.characteristic f) ids d = .ok d1 ∧
      d1.bv .elev i = z ∧
      (w ≤ z ∨ out ≤ z → d1.bv .stage i = out ∧ d1.bv .xmom i = 0 ∧ d1.bv .ymom i = 0) ∧
      (z < w → z < out →
        0 < un / (w - z) + 2 * (p.sqrt (p.g * (w - z)) + p.sqrt (p.g * (out - z))) →
        ∃ h u, d1.bv .stage i = z + h ∧ 0 < h ∧
          along n (d1.bv .xmom i) (d1.bv .ymom i) = h * u ∧
          u + 2 * p.sqrt (p.g * h) = un / (w - z) + 2 * p.sqrt (p.g * (w - z)) ∧
          u - 2 * p.sqrt (p.g * h) = 0 - 2 * p.sqrt (p.g * (out - z)) ∧
          across n (d1.bv .xmom i) (d1.bv .ymom i) = if 0 < un then ut else 0) := by
  intro n z w un ut
  refine ⟨characteristicSegment p out ids d, by
    simp [evaluateSegment, hf, bind, Except.bind, pure, Except.pure], ?_, ?_, ?_⟩
  · simp [characteristicSegment, put_bv, Dom.copyEdge, hi, z]
  · intro hdry
    have hd : max (w - z) 0 = 0 ∨ max (out - z) 0 = 0 := by
      rcases hdry with h | h
      · exact Or.inl (max_eq_right (by linarith))
      · exact Or.inr (max_eq_right (by linarith))
    simp only [characteristicSegment, put_bv, Dom.copyEdge, hi, and_true, reduceCtorEq, if_false,
      if_true, put_edge, put_cells, put_edges]
    have hd' : decide (max (d.edge .stage (d.cells i) (d.edges i) -
        d.edge .elev (d.cells i) (d.edges i)) 0 = 0 ∨
        max (out - d.edge .elev (d.cells i) (d.edges i)) 0 = 0) = true := by
      simpa using hd
    rw [hd']
    simp
  · intro hw ho hsub
    have hwz : 0 < w - z := by linarith
    have hoz : 0 < out - z := by linarith
    have hmw : max (d.edge .stage (d.cells i) (d.edges i) -
        d.edge .elev (d.cells i) (d.edges i)) 0 = w - z := max_eq_left hwz.le
    have hmo : max (out - d.edge .elev (d.cells i) (d.edges i)) 0 = out - z := max_eq_left hoz.le
    obtain ⟨g1, g2⟩ := hs p.g hg.le
    have g0 := hs.pos p.g hg
    obtain ⟨a1, a2⟩ := hs (w - z) hwz.le
    have a0 := hs.pos _ hwz
    obtain ⟨b1, b2⟩ := hs (out - z) hoz.le
    have b0 := hs.pos _ hoz
    have hga : p.sqrt (p.g * (w - z)) = p.sqrt p.g * p.sqrt (w - z) :=
      hs.eq _ _ (mul_nonneg g1 a1) (by rw [mul_pow, g2, a2])
    have hgb : p.sqrt (p.g * (out - z)) = p.sqrt p.g * p.sqrt (out - z) :=
      hs.eq _ _ (mul_nonneg g1 b1) (by rw [mul_pow, g2, b2])
    rw [hga, hgb] at hsub ⊢
    set u := un / (w - z) with hu
    set c := 1 / 2 * (p.sqrt (w - z) + p.sqrt (out - z)) + u / 4 / p.sqrt p.g with hc
    have hc4 : 4 * p.sqrt p.g * c =
        u + 2 * (p.sqrt p.g * p.sqrt (w - z) + p.sqrt p.g * p.sqrt (out - z)) := by
      rw [hc]
      have : 4 * p.sqrt p.g * (u / 4 / p.sqrt p.g) = u := by
        rw [div_div, mul_div_cancel₀ _ (mul_ne_zero four_ne_zero g0.ne')]
      linear_combination this
    have hcpos : 0 < c := by
      by_contra hneg
      have : 4 * p.sqrt p.g * c ≤ 0 := mul_nonpos_of_nonneg_of_nonpos (by positivity) (not_lt.1 hneg)
      linarith
    have hgc : p.sqrt (p.g * c ^ 2) = p.sqrt p.g * c :=
      hs.eq _ _ (mul_nonneg g1 hcpos.le) (by rw [mul_pow, g2])
    refine ⟨c ^ 2, 1 / 2 * u + p.sqrt p.g * (p.sqrt (w - z) - p.sqrt (out - z)), ?_, by positivity,
      ?_, ?_, ?_, ?_⟩
    · simp only [characteristicSegment, put_bv, Dom.copyEdge, hi, and_true, reduceCtorEq, if_false,
        if_true, put_edge, put_cells, put_edges, hmw, hmo, hwz.ne', hoz.ne', or_self, decide_false,
        Bool.false_eq_true, gt_iff_lt, hwz]
      exact add_comm _ _
    · simp only [characteristicSegment, put_bv, Dom.copyEdge, hi, and_true, reduceCtorEq, if_false,
        if_true, put_edge, put_cells, put_edges, hmw, hmo, hwz.ne', hoz.ne', or_self, decide_false,
        Bool.false_eq_true, gt_iff_lt, hwz]
      show n.1 * (c ^ 2 * (1 / 2 * u + p.sqrt p.g * (p.sqrt (w - z) - p.sqrt (out - z))) * n.1 +
          _ * n.2) + n.2 * (c ^ 2 * (1 / 2 * u + p.sqrt p.g * (p.sqrt (w - z) -
          p.sqrt (out - z))) * n.2 - _ * n.1) = _
      have hn' : n.1 ^ 2 + n.2 ^ 2 = 1 := hn
      linear_combination (c ^ 2 * (1 / 2 * u + p.sqrt p.g * (p.sqrt (w - z) - p.sqrt (out - z)))) *
        hn'
    · rw [hgc]; linear_combination 1 / 2 * hc4
    · rw [hgc]; linear_combination -(1 / 2) * hc4
    · simp only [characteristicSegment, put_bv, Dom.copyEdge, hi, and_true, reduceCtorEq, if_false,
        if_true, put_edge, put_cells, put_edges, hmw, hmo, hwz.ne', hoz.ne', or_self, decide_false,
        Bool.false_eq_true, gt_iff_lt, hwz]
      have hn' : n.1 ^ 2 + n.2 ^ 2 = 1 := hn
      show n.1 * (_ * n.2 - (if 0 < un then n.2 * d.edge .xmom (d.cells i) (d.edges i) -
          n.1 * d.edge .ymom (d.cells i) (d.edges i) else 0) * n.1) -
        n.2 * (_ * n.1 + (if 0 < un then n.2 * d.edge .xmom (d.cells i) (d.edges i) -
          n.1 * d.edge .ymom (d.cells i) (d.edges i) else 0) * n.2) = _
      by_cases h0 : 0 < un
      · simp only [h0, if_true]
        show _ = n.1 * d.edge .ymom (d.cells i) (d.edges i) -
          n.2 * d.edge .xmom (d.cells i) (d.edges i)
        linear_combination (n.1 * d.edge .ymom (d.cells i) (d.edges i) -
          n.2 * d.edge .xmom (d.cells i) (d.edges i)) * hn'
      · simp only [h0, if_false]; ring

/-- C56: the Flather condition evaluated at a wet edge: with `c = √(g / depth)` the outgoing
combination `u + c w` is that of the inside state, the incoming one `u - c w` is that of still water
at the outside stage, and the momentum along the boundary is kept on outflow and zero on inflow. -/
theorem C56_flather (p : Par K) (hs : IsSqrt p.sqrt) (hg : 0 < p.g) (f : K → Except Err K)
    (d : Dom K) (hd : ShallowWater d) (v e : ℕ) (out : K) (hf : f d.time = .ok out)
    (hn : Unit2 (d.normal v e)) :
    let n := d.normal v e
    let depth := d.edge .stage v e - d.cent .elev v
    let c := p.sqrt (p.g / depth)
    let un := along n (d.edge .xmom v e) (d.edge .ymom v e)
    ∃ w x y, evaluate p d (.flather f) v e = .ok [w, x, y] ∧
      (depth ≤ 0 → w = out ∧ x = 0 ∧ y = 0) ∧
      (0 < depth → 0 < c ∧
        along n x y / depth + c * w = un / depth + c * d.edge .stage v e ∧
        along n x y / depth - c * w = 0 - c * out ∧
        across n x y = if 0 < un then across n (d.edge .xmom v e) (d.edge .ymom v e) else 0) := by
  intro n depth c un
  refine ⟨_, _, _, flather_evaluate p f d hd out hf v e, ?_, ?_⟩
  · intro h
    have : max (d.edge .stage v e - d.cent .elev v) 0 = 0 := max_eq_right h
    unfold flatherPoint
    rw [this]
    simp
  · intro h
    have hmax : max (d.edge .stage v e - d.cent .elev v) 0 = depth := max_eq_left h.le
    have hc : 0 < c := hs.pos _ (div_pos hg h)
    have hn' : n.1 ^ 2 + n.2 ^ 2 = 1 := hn
    have hcw : ∀ t : K, c * (t / (2 * c)) = t / 2 := by
      intro t
      rw [mul_comm 2 c, ← div_div, mul_div_assoc', mul_div_cancel₀ _ hc.ne']
    unfold flatherPoint
    simp only [hmax, h.ne', if_false]
    refine ⟨hc, ?_, ?_, ?_⟩
    · show (n.1 * ((un / depth + c * d.edge .stage v e + (0 - c * out)) / 2 * depth * n.1 +
          _ * n.2) + n.2 * ((un / depth + c * d.edge .stage v e + (0 - c * out)) / 2 * depth * n.2 -
          _ * n.1)) / depth + c * ((un / depth + c * d.edge .stage v e - (0 - c * out)) / (2 * c)) =
          _
      rw [hcw]
      generalize un / depth + c * d.edge .stage v e = A
      rw [div_add' _ _ _ h.ne', div_eq_iff h.ne']
      linear_combination ((A + (0 - c * out)) / 2 * depth) * hn'
    · show (n.1 * ((un / depth + c * d.edge .stage v e + (0 - c * out)) / 2 * depth * n.1 +
          _ * n.2) + n.2 * ((un / depth + c * d.edge .stage v e + (0 - c * out)) / 2 * depth * n.2 -
          _ * n.1)) / depth - c * ((un / depth + c * d.edge .stage v e - (0 - c * out)) / (2 * c)) =
          _
      rw [hcw]
      generalize un / depth + c * d.edge .stage v e = A
      rw [div_sub' h.ne', div_eq_iff h.ne']
      linear_combination ((A + (0 - c * out)) / 2 * depth) * hn'
    · show n.1 * (_ * n.2 - (if un > 0 then (n.2 * d.edge .xmom v e - n.1 * d.edge .ymom v e) /
          depth else 0) * depth * n.1) - n.2 * (_ * n.1 + (if un > 0 then (n.2 * d.edge .xmom v e -
          n.1 * d.edge .ymom v e) / depth else 0) * depth * n.2) = _
      by_cases h0 : 0 < un
      · simp only [gt_iff_lt, h0, if_true, div_mul_cancel₀ _ h.ne']
        unfold across
        linear_combination (n.1 * d.edge .ymom v e - n.2 * d.edge .xmom v e) * hn'
      · simp only [gt_iff_lt, h0, if_false]; ring

theorem find_key (l : List ((ℕ × ℕ) × Tag)) (hk : (l.map Prod.fst).Nodup) (s : (ℕ × ℕ) × Tag)
    (hs : s ∈ l) : (l.find? fun x => x.1 == (s.1.1, s.1.2)) = some s := by
  induction l with
  | nil => simp at hs
  | cons b l ih =>
    rw [List.map_cons, List.nodup_cons] at hk
    rw [List.find?_cons]
    rcases List.mem_cons.1 hs with rfl | hs'
    · simp
    · have hne : b.1 ≠ s.1 := fun h => hk.1 (List.mem_map.2 ⟨s, hs', h.symm⟩)
      have : (b.1 == (s.1.1, s.1.2)) = false := by simpa using hne
      rw [this]
      exact ih hk.2 hs'

/-- C56: an inflow condition used on one tag lets exactly `rate` cubic metres per second into the
domain, summed over the edges of that tag. -/
theorem C56_inflow_total (rate : K) (boundary : List ((ℕ × ℕ) × Tag))
    (hkeys : (boundary.map Prod.fst).Nodup) (length : ℕ → ℕ → K) (normal : ℕ → ℕ → K × K)
    (elev : ℕ → ℕ → K) (tag : Tag) (f : Inflow K)
    (hf : f = ⟨rate, none⟩ ∨ ∃ s ∈ boundary, s.2 = tag ∧
      f = (Inflow.evaluate ⟨rate, none⟩ boundary length normal elev s.1.1 s.1.2).1)
    (hn : ∀ s ∈ boundary, s.2 = tag → Unit2 (normal s.1.1 s.1.2))
    (hl : ((boundary.filter fun s => s.2 == tag).map fun s => length s.1.1 s.1.2).sum ≠ 0) :
    ∃ flow : ((ℕ × ℕ) × Tag) → K,
      (∀ s ∈ boundary, s.2 = tag → ∃ w x y,
        (f.evaluate boundary length normal elev s.1.1 s.1.2).2 = some (w, x, y) ∧
        flow s = -(along (normal s.1.1 s.1.2) x y) * length s.1.1 s.1.2) ∧
      ((boundary.filter fun s => s.2 == tag).map flow).sum = rate := by
  set len := ((boundary.filter fun s => s.2 == tag).map fun s => length s.1.1 s.1.2).sum with hlen
  have hfind : ∀ s ∈ boundary, (boundary.find? fun x => x.1 == (s.1.1, s.1.2)) = some s :=
    fun s hs => find_key boundary hkeys s hs
  have hev : ∀ s ∈ boundary, s.2 = tag →
      Inflow.evaluate ⟨rate, none⟩ boundary length normal elev s.1.1 s.1.2 =
        (⟨rate, some (tag, rate / len)⟩, some (elev s.1.1 s.1.2 + 1,
          rate / len * -(normal s.1.1 s.1.2).1, rate / len * -(normal s.1.1 s.1.2).2)) := by
    intro s hs ht
    unfold Inflow.evaluate
    simp only [hfind s hs, Option.map_some, ht, ← hlen]
  have hval : ∀ s ∈ boundary, s.2 = tag →
      (f.evaluate boundary length normal elev s.1.1 s.1.2).2 = some (elev s.1.1 s.1.2 + 1,
          rate / len * -(normal s.1.1 s.1.2).1, rate / len * -(normal s.1.1 s.1.2).2) := by
    intro s hs ht
    rcases hf with rfl | ⟨s0, hs0, ht0, rfl⟩
    · rw [hev s hs ht]
    · rw [hev s0 hs0 ht0]
      rfl
  refine ⟨fun s => rate / len * length s.1.1 s.1.2, ?_, ?_⟩
  · intro s hs ht
    refine ⟨_, _, _, hval s hs ht, ?_⟩
    have := hn s hs ht
    unfold Unit2 at this
    unfold along
    linear_combination (-(rate / len * length s.1.1 s.1.2)) * this
  · rw [List.sum_map_mul_left, ← hlen, div_mul_cancel₀ _ hl]

/-- C56, disagreement: an inflow object bound to two tags keeps the edge length of the tag it met
first, so the second tag receives another rate. -/
theorem C56_inflow_two_tags : ∃ (f : Inflow ℚ) (boundary : List ((ℕ × ℕ) × Tag))
    (length : ℕ → ℕ → ℚ) (normal : ℕ → ℕ → ℚ × ℚ) (w x y : ℚ),
    (boundary.map Prod.fst).Nodup ∧ ((1, 0), 2) ∈ boundary ∧
    -- the only edge with tag 2
    (∀ s ∈ boundary, s.2 = 2 → s.1 = (1, 0)) ∧
    let f1 := (f.evaluate boundary length normal (fun _ _ => 0) 0 0).1
    (f1.evaluate boundary length normal (fun _ _ => 0) 1 0).2 = some (w, x, y) ∧
    -(along (normal 1 0) x y) * length 1 0 = 3 * f.rate ∧ f.rate ≠ 0 :=
  ⟨⟨6, none⟩, [((0, 0), 1), ((1, 0), 2)], fun v _ => if v = 0 then 2 else 6, fun _ _ => (1, 0),
    1, -3, 0, by decide +kernel⟩

end Verif.Bdry
