import Verif.Quantity.Lemmas
import Verif.Quantity.Spec
import Verif.Basic

/-!
# C09 semi-implicit update, C10 Runge-Kutta combination, C38 limiters, C40 interpolation round trips
-/

set_option linter.unusedSectionVars false

namespace Verif.Quantity

variable {K : Type*} [Field K] [LinearOrder K] [IsStrictOrderedRing K]

/-! ## C09 -/

/-- C09: the update fails exactly when some nonzero value has a non-positive denominator. -/
theorem C09_update_fails_iff (dt : K) (cells : List (Cell K)) :
    (update dt cells).1 = false ↔ ∃ x ∈ cells, x.c ≠ 0 ∧ 1 - dt * (x.s / x.c) ≤ 0 := by
  have key : (semiLoop dt ((cells.map divide).map (explicit dt))).1 = true ↔
      ∀ x ∈ cells, 0 < 1 - dt * (if x.c = 0 then 0 else x.s / x.c) := by
    rw [semiLoop_fst]
    simp [divide, explicit]
  have h1 : (update dt cells).1 = true ↔ ∀ x ∈ cells, 0 < 1 - dt * (if x.c = 0 then 0 else x.s / x.c) := by
    rw [← key]
    unfold update
    simp only
    split_ifs with h
    · exact ⟨fun _ => h, fun _ => rfl⟩
    · exact Iff.rfl
  rw [← Bool.not_eq_true, h1]
  push Not
  constructor
  · rintro ⟨x, hx, h⟩
    by_cases hc : x.c = 0
    · rw [if_pos hc] at h; simp at h; exact absurd h (not_le.mpr zero_lt_one)
    · rw [if_neg hc] at h; exact ⟨x, hx, hc, h⟩
  · rintro ⟨x, hx, hc, h⟩
    exact ⟨x, hx, by rw [if_neg hc]; exact h⟩

/-- C09: on success every value solves its equation, the explicit update is untouched and the semi-implicit update is reset. -/
theorem C09_update_solves (dt : K) (cells : List (Cell K)) (h : (update dt cells).1 = true) :
    List.Forall₂ (fun x y => Solves dt x.c x.e x.s y.c ∧ y.e = x.e ∧ y.s = 0) cells (update dt cells).2 := by
  have hl : (semiLoop dt ((cells.map divide).map (explicit dt))).1 = true := by
    unfold update at h
    simp only at h
    split_ifs at h with h'
    · exact h'
    · exact absurd h h'
  have he : (update dt cells).2 = cells.map (fun x : Cell K =>
      ({ c := (x.c + dt * x.e) / (1 - dt * (if x.c = 0 then 0 else x.s / x.c)), e := x.e, s := 0 } : Cell K)) := by
    unfold update
    simp only [hl, if_true]
    rw [semiLoop_snd dt _ hl]
    simp [divide, explicit]
  rw [he, List.forall₂_map_right_iff, List.forall₂_same]
  intro x hx
  rw [semiLoop_fst] at hl
  have hpos : 0 < 1 - dt * (if x.c = 0 then 0 else x.s / x.c) := by
    have := hl (explicit dt (divide x)) (by simp only [List.mem_map]; exact ⟨divide x, ⟨x, hx, rfl⟩, rfl⟩)
    simpa [divide, explicit] using this
  refine ⟨?_, rfl, rfl⟩
  unfold Solves
  generalize (if x.c = 0 then 0 else x.s / x.c) = r at *
  have hne : 1 - dt * r ≠ 0 := hpos.ne'
  simp only
  field_simp
  ring

/-- C09: the solution is unique, so the stored value is determined by the equation. -/
theorem C09_solution_unique (dt c e s a b : K) (hd : c ≠ 0 → 0 < 1 - dt * (s / c)) (ha : Solves dt c e s a)
    (hb : Solves dt c e s b) : a = b := by
  unfold Solves at ha hb
  by_cases hc : c = 0
  · simp only [hc, if_true] at ha hb
    rw [ha, hb]; ring
  · simp only [hc, if_false] at ha hb
    have h0 : (1 - dt * (s / c)) * (a - b) = 0 := by linear_combination ha - hb
    rcases mul_eq_zero.mp h0 with h | h
    · exact absurd h (hd hc).ne'
    · linarith

/-- C09: a damping term (opposite sign to the value, `dt ≥ 0`) never fails, never reverses and never enlarges the explicit
prediction. -/
theorem C09_damping_is_safe (dt : K) (cells : List (Cell K)) (hdt : 0 ≤ dt) (hd : ∀ x ∈ cells, x.s * x.c ≤ 0) :
    (update dt cells).1 = true ∧
    List.Forall₂ (fun x y => 0 ≤ y.c * (x.c + dt * x.e) ∧ |y.c| ≤ |x.c + dt * x.e|) cells (update dt cells).2 := by
  have hq : ∀ x ∈ cells, x.c ≠ 0 → x.s / x.c ≤ 0 := by
    intro x hx hc
    rw [div_eq_mul_inv]
    have h2 : 0 < x.c * x.c := mul_self_pos.mpr hc
    have e : x.s * x.c⁻¹ = (x.s * x.c) / (x.c * x.c) := by field_simp
    rw [e]
    exact div_nonpos_of_nonpos_of_nonneg (hd x hx) h2.le
  have hok : (update dt cells).1 = true := by
    rw [← Bool.not_eq_false, C09_update_fails_iff]
    rintro ⟨x, hx, hc, h⟩
    have : dt * (x.s / x.c) ≤ 0 := mul_nonpos_of_nonneg_of_nonpos hdt (hq x hx hc)
    linarith
  refine ⟨hok, ?_⟩
  have hs := C09_update_solves dt cells hok
  have hlen := hs.length_eq
  rw [List.forall₂_iff_get] at hs ⊢
  refine ⟨hlen, ?_⟩
  intro i h1 h2
  obtain ⟨hsol, _, _⟩ := hs.2 i h1 h2
  have hmem : cells.get ⟨i, h1⟩ ∈ cells := List.get_mem _ _
  revert hsol
  generalize hx : cells.get ⟨i, h1⟩ = x at *
  generalize (update dt cells).2.get ⟨i, h2⟩ = y
  intro hsol
  unfold Solves at hsol
  have hr : (if x.c = 0 then 0 else x.s / x.c) ≤ 0 := by
    split_ifs with hc
    · exact le_refl _
    · exact hq x hmem hc
  generalize (if x.c = 0 then 0 else x.s / x.c) = r at *
  have hden : 1 ≤ 1 - dt * r := by
    have := mul_nonpos_of_nonneg_of_nonpos hdt hr
    linarith
  have hy : x.c + dt * x.e = (1 - dt * r) * y.c := by linear_combination -hsol
  rw [hy]
  constructor
  · have : y.c * ((1 - dt * r) * y.c) = (1 - dt * r) * (y.c * y.c) := by ring
    rw [this]
    exact mul_nonneg (by linarith) (mul_self_nonneg _)
  · rw [abs_mul, abs_of_pos (by linarith : (0 : K) < 1 - dt * r)]
    exact le_mul_of_one_le_left (abs_nonneg _) hden

/-- C09: a failed update is not clean: earlier cells are already advanced, later ones only explicitly, and the semi-implicit
update is left divided by the old value. -/
theorem C09_failure_leaves_partial_state : ∃ (dt : ℚ) (cells : List (Cell ℚ)), (update dt cells).1 = false ∧
    (update dt cells).2.map (fun x => (x.c, x.s)) = [(3 / 2, 0), (2, 1), (5, 0)] ∧
    cells.map (fun x => (x.c, x.s)) = [(1 / 2, 0), (2, 2), (4, 0)] :=
  ⟨1, [⟨1 / 2, 1, 0⟩, ⟨2, 0, 2⟩, ⟨4, 1, 0⟩], by decide +kernel⟩

example : (update (1 : ℚ) [⟨2, 1, -4⟩, ⟨0, 3, 5⟩]).1 = true ∧
    (update (1 : ℚ) [⟨2, 1, -4⟩, ⟨0, 3, 5⟩]).2.map (fun x => (x.c, x.s)) = [(1, 0), (3, 0)] := by decide +kernel

/-! ## C10 -/

variable {ι : Type*} [Fintype ι]

theorem updateAll_solves {dt : K} {q e s q' : ι → K} (h : updateAll dt q e s = some q') (i : ι) :
    Solves dt (q i) (e i) (s i) (q' i) := by
  unfold updateAll at h
  simp only at h
  split_ifs at h with hp
  simp only [Option.some.injEq] at h
  subst h
  have hpos := hp i
  unfold Solves
  simp only
  generalize (if q i = 0 then 0 else s i / q i) = r at *
  have hne : 1 - dt * r ≠ 0 := hpos.ne'
  field_simp
  ring

/-- Applied rate of a sub-step. -/
def rateOf (q e s q' : ι → K) (i : ι) : K := e i + (if q i = 0 then 0 else s i / q i) * q' i

theorem updateAll_rate {dt : K} {q e s q' : ι → K} (h : updateAll dt q e s = some q') (i : ι) :
    q' i = q i + dt * rateOf q e s q' i := by
  have := updateAll_solves h i
  unfold Solves at this
  unfold rateOf
  linear_combination this

/-- C10: an euler step applies one rate, evaluated at the start time on the distributed state, over `dt`, and repairs the result. -/
theorem C10_euler (env : Env K ι) (t : K) (q : ι → K) (r : StepResult K ι) (h : eulerStep env t q = some r) :
    ∃ p0 q1 R0 : ι → K, p0 = env.distribute q ∧ r.dt = env.dt t p0 ∧
      (∀ i, AppliedRate (p0 i) (env.expl t p0 i) (env.semi t p0 i) (q1 i) (R0 i)) ∧
      (∀ i, q1 i = p0 i + r.dt * R0 i) ∧ r.q = env.post q1 ∧ r.time = t + r.dt ∧ r.evalTimes = [t] := by
  unfold eulerStep at h
  simp only at h
  cases h1 : updateAll (env.dt t (env.distribute q)) (env.distribute q) (env.expl t (env.distribute q))
      (env.semi t (env.distribute q)) with
  | none => rw [h1] at h; cases h
  | some q1 =>
    rw [h1] at h
    cases h
    exact ⟨_, q1, _, rfl, rfl, fun i => rfl, fun i => updateAll_rate h1 i, rfl, rfl, rfl⟩

/-- C10: an rk2 step moves every value by `dt` times the plain average of the rates applied in its two sub-steps, evaluated
at `t` and `t+dt` with the same `dt`; depth protection, ghost refresh and repair between the sub-steps enter with weight
one half. -/
theorem C10_rk2 (env : Env K ι) (t : K) (q : ι → K) (r : StepResult K ι) (h : rk2Step env t q = some r) :
    ∃ p0 q1 p1 q2 R0 R1 : ι → K,
      p0 = env.distribute q ∧ r.dt = env.dt t p0 ∧
      (∀ i, AppliedRate (p0 i) (env.expl t p0 i) (env.semi t p0 i) (q1 i) (R0 i) ∧ q1 i = p0 i + r.dt * R0 i) ∧
      p1 = env.distribute (if env.ghostLayerThin then env.ghosts (env.post q1) else env.post q1) ∧
      (∀ i, AppliedRate (p1 i) (env.expl (t + r.dt) p1 i) (env.semi (t + r.dt) p1 i) (q2 i) (R1 i) ∧
        q2 i = p1 i + r.dt * R1 i) ∧
      (∀ i, r.q i = q i + r.dt * (1 / 2 * R0 i + 1 / 2 * R1 i) +
        1 / 2 * ((p0 i - q i) + (p1 i - q1 i) + (env.post q2 i - q2 i))) ∧
      r.time = t + r.dt ∧ r.evalTimes = [t, t + r.dt] := by
  unfold rk2Step at h
  simp only at h
  generalize hp0 : env.distribute q = p0 at *
  cases h1 : updateAll (env.dt t p0) p0 (env.expl t p0) (env.semi t p0) with
  | none => rw [h1] at h; cases h
  | some q1 =>
    rw [h1] at h
    simp only at h
    generalize hp1 : env.distribute (if env.ghostLayerThin then env.ghosts (env.post q1) else env.post q1) = p1 at *
    cases h2 : updateAll (env.dt t p0) p1 (env.expl (t + env.dt t p0) p1) (env.semi (t + env.dt t p0) p1) with
    | none => rw [h2] at h; cases h
    | some q2 =>
      rw [h2] at h
      cases h
      refine ⟨p0, q1, p1, q2, _, _, rfl, rfl, fun i => ⟨rfl, updateAll_rate h1 i⟩, hp1.symm,
        fun i => ⟨rfl, updateAll_rate h2 i⟩, ?_, rfl, rfl⟩
      intro i
      have e1 := updateAll_rate h1 i
      have e2 := updateAll_rate h2 i
      simp only [saxpy]
      unfold rateOf at e1 e2
      linear_combination (1 / 2 : K) * e1 + (1 / 2 : K) * e2

/-- C10: an rk3 step moves every value by `dt` times the weighted sum (1/6, 1/6, 2/3) of the rates applied in its three
sub-steps, evaluated at `t`, `t+dt`, `t+dt/2`. -/
theorem C10_rk3 (env : Env K ι) (t : K) (q : ι → K) (r : StepResult K ι) (h : rk3Step env t q = some r) :
    ∃ p0 q1 p1 q2 qh p2 q3 R0 R1 R2 : ι → K,
      p0 = env.distribute q ∧ r.dt = env.dt t p0 ∧
      (∀ i, AppliedRate (p0 i) (env.expl t p0 i) (env.semi t p0 i) (q1 i) (R0 i) ∧ q1 i = p0 i + r.dt * R0 i) ∧
      p1 = env.distribute (env.ghosts (env.post q1)) ∧
      (∀ i, AppliedRate (p1 i) (env.expl (t + r.dt) p1 i) (env.semi (t + r.dt) p1 i) (q2 i) (R1 i) ∧
        q2 i = p1 i + r.dt * R1 i) ∧
      (∀ i, qh i = 1 / 4 * env.post q2 i + 3 / 4 * q i) ∧ p2 = env.distribute (env.ghosts qh) ∧
      (∀ i, AppliedRate (p2 i) (env.expl (t + r.dt / 2) p2 i) (env.semi (t + r.dt / 2) p2 i) (q3 i) (R2 i) ∧
        q3 i = p2 i + r.dt * R2 i) ∧
      (∀ i, r.q i = q i + r.dt * (1 / 6 * R0 i + 1 / 6 * R1 i + 2 / 3 * R2 i)
        + (1 / 6 * ((p0 i - q i) + (p1 i - q1 i) + (env.post q2 i - q2 i)) +
          2 / 3 * ((p2 i - qh i) + (env.post q3 i - q3 i)))) ∧
      r.time = t + r.dt ∧ r.evalTimes = [t, t + r.dt, t + r.dt / 2] := by
  unfold rk3Step at h
  simp only at h
  have hhalf : ∀ d : K, d * (1 / 2) = d / 2 := fun d => by ring
  simp only [hhalf] at h
  generalize hp0 : env.distribute q = p0 at *
  cases h1 : updateAll (env.dt t p0) p0 (env.expl t p0) (env.semi t p0) with
  | none => rw [h1] at h; cases h
  | some q1 =>
    rw [h1] at h
    simp only at h
    generalize hp1 : env.distribute (env.ghosts (env.post q1)) = p1 at *
    cases h2 : updateAll (env.dt t p0) p1 (env.expl (t + env.dt t p0) p1) (env.semi (t + env.dt t p0) p1) with
    | none => rw [h2] at h; cases h
    | some q2 =>
      rw [h2] at h
      simp only at h
      generalize hp2 : env.distribute (env.ghosts (saxpy (1 / 4) (3 / 4) (env.post q2) q)) = p2 at *
      cases h3 : updateAll (env.dt t p0) p2 (env.expl (t + env.dt t p0 / 2) p2) (env.semi (t + env.dt t p0 / 2) p2) with
      | none => rw [h3] at h; cases h
      | some q3 =>
        rw [h3] at h
        cases h
        refine ⟨p0, q1, p1, q2, _, p2, q3, _, _, _, rfl, rfl, fun i => ⟨rfl, updateAll_rate h1 i⟩, hp1.symm,
          fun i => ⟨rfl, updateAll_rate h2 i⟩, fun i => rfl, hp2.symm, fun i => ⟨rfl, updateAll_rate h3 i⟩, ?_, rfl, rfl⟩
        intro i
        have e1 := updateAll_rate h1 i
        have e2 := updateAll_rate h2 i
        have e3 := updateAll_rate h3 i
        simp only [saxpy]
        unfold rateOf at e1 e2 e3
        linear_combination (1 / 6 : K) * e1 + (1 / 6 : K) * e2 + (2 / 3 : K) * e3

/-- A sub-step (protection followed by update and repair) keeps the box, with the `dt` of the whole step. -/
def SubStepsKeep (env : Env K ι) (lo hi : ι → K) (dt : K) : Prop :=
  ∀ t q q', InBox lo hi q →
    updateAll dt (env.distribute q) (env.expl t (env.distribute q)) (env.semi t (env.distribute q)) = some q' →
    InBox lo hi (env.post q')

/-- C10: if the sub-steps and the ghost refresh keep every value within its interval, so does the full rk2 step. -/
theorem C10_rk2_keeps_bounds (env : Env K ι) (lo hi : ι → K) (t : K) (q : ι → K) (r : StepResult K ι)
    (h : rk2Step env t q = some r) (hsub : SubStepsKeep env lo hi r.dt)
    (hgh : ∀ q, InBox lo hi q → InBox lo hi (env.ghosts q)) (hq : InBox lo hi q) : InBox lo hi r.q := by
  unfold rk2Step at h
  simp only at h
  cases h1 : updateAll (env.dt t (env.distribute q)) (env.distribute q) (env.expl t (env.distribute q))
      (env.semi t (env.distribute q)) with
  | none => rw [h1] at h; cases h
  | some q1 =>
    rw [h1] at h
    simp only at h
    generalize hg : (if env.ghostLayerThin then env.ghosts (env.post q1) else env.post q1) = g1 at *
    cases h2 : updateAll (env.dt t (env.distribute q)) (env.distribute g1)
        (env.expl (t + env.dt t (env.distribute q)) (env.distribute g1))
        (env.semi (t + env.dt t (env.distribute q)) (env.distribute g1)) with
    | none => rw [h2] at h; cases h
    | some q2 =>
      rw [h2] at h
      cases h
      have b1 := hsub t q q1 hq h1
      have bg : InBox lo hi g1 := by
        rw [← hg]
        split_ifs
        · exact hgh _ b1
        · exact b1
      have b2 := hsub _ g1 q2 bg h2
      intro i
      obtain ⟨a1, a2⟩ := hq i
      obtain ⟨c1, c2⟩ := b2 i
      simp only [saxpy]
      constructor <;> linarith

/-- C10: the same for rk3. -/
theorem C10_rk3_keeps_bounds (env : Env K ι) (lo hi : ι → K) (t : K) (q : ι → K) (r : StepResult K ι)
    (h : rk3Step env t q = some r) (hsub : SubStepsKeep env lo hi r.dt)
    (hgh : ∀ q, InBox lo hi q → InBox lo hi (env.ghosts q)) (hq : InBox lo hi q) : InBox lo hi r.q := by
  unfold rk3Step at h
  simp only at h
  cases h1 : updateAll (env.dt t (env.distribute q)) (env.distribute q) (env.expl t (env.distribute q))
      (env.semi t (env.distribute q)) with
  | none => rw [h1] at h; cases h
  | some q1 =>
    rw [h1] at h
    simp only at h
    generalize hg : env.ghosts (env.post q1) = g1 at *
    cases h2 : updateAll (env.dt t (env.distribute q)) (env.distribute g1)
        (env.expl (t + env.dt t (env.distribute q)) (env.distribute g1))
        (env.semi (t + env.dt t (env.distribute q)) (env.distribute g1)) with
    | none => rw [h2] at h; cases h
    | some q2 =>
      rw [h2] at h
      simp only at h
      generalize ht2 : t + env.dt t (env.distribute q) * (1 / 2) = t2 at *
      generalize hg2 : env.ghosts (saxpy (1 / 4) (3 / 4) (env.post q2) q) = g2 at *
      cases h3 : updateAll (env.dt t (env.distribute q)) (env.distribute g2)
        (env.expl t2 (env.distribute g2)) (env.semi t2 (env.distribute g2)) with
      | none => rw [h3] at h; cases h
      | some q3 =>
        rw [h3] at h
        cases h
        have b1 := hsub t q q1 hq h1
        have b2 := hsub _ g1 q2 (hg ▸ hgh _ b1) h2
        have bh : InBox lo hi (saxpy (1 / 4) (3 / 4) (env.post q2) q) := by
          intro i
          obtain ⟨a1, a2⟩ := hq i
          obtain ⟨c1, c2⟩ := b2 i
          simp only [saxpy]
          constructor <;> linarith
        have b3 := hsub _ g2 q3 (hg2 ▸ hgh _ bh) h3
        intro i
        obtain ⟨a1, a2⟩ := hq i
        obtain ⟨c1, c2⟩ := b3 i
        simp only [saxpy]
        constructor
        · rw [le_div_iff₀ (by norm_num)]; linarith
        · rw [div_le_iff₀ (by norm_num)]; linarith

/-- Constant-rate decay towards zero: all three steps run and the rk2/rk3 results differ from euler as expected. -/
def exEnv : Env ℚ Unit where
  distribute := id
  expl := fun _ q => fun i => -q i
  semi := fun _ _ _ => 0
  dt := fun _ _ => 1 / 2
  ghosts := id
  ghostLayerThin := true

example : (eulerStep exEnv 0 (fun _ => 1)).map (fun r => r.q ()) = some (1 / 2) ∧
    (rk2Step exEnv 0 (fun _ => 1)).map (fun r => (r.q (), r.time)) = some (5 / 8, 1 / 2) ∧
    (rk3Step exEnv 0 (fun _ => 1)).map (fun r => (r.q (), r.time)) = some (29 / 48, 1 / 2) := by decide +kernel

example : SubStepsKeep exEnv (fun _ => 0) (fun _ => 1) (1 / 2) := by
  intro t q q' hq h i
  have e := updateAll_rate h i
  obtain ⟨h1, h2⟩ := hq i
  simp [exEnv, rateOf] at e
  change (0 : ℚ) ≤ q' i ∧ q' i ≤ 1
  rw [e]
  constructor <;> linarith

/-! ## C40 -/

/-- C40: vertices to edges and back is the identity. -/
theorem C40_vertices_edges_vertices (v : V3 K) : toVertices (toEdges v) = v := by
  obtain ⟨a, b, c⟩ := v
  simp only [toVertices, toEdges, V3.mk.injEq]
  refine ⟨?_, ?_, ?_⟩ <;> ring

/-- C40: edges to vertices and back is the identity. -/
theorem C40_edges_vertices_edges (e : V3 K) : toEdges (toVertices e) = e := by
  obtain ⟨a, b, c⟩ := e
  simp only [toVertices, toEdges, V3.mk.injEq]
  refine ⟨?_, ?_, ?_⟩ <;> ring

/-- C40: the centroid value set by `interpolate` is the mean of the vertex values and also the mean of the edge values, and
lies between the smallest and the largest of them. -/
theorem C40_centroid_is_mean (v : V3 K) :
    toCentroid v * 3 = v.v0 + v.v1 + v.v2 ∧
    toCentroid v * 3 = (toEdges v).v0 + (toEdges v).v1 + (toEdges v).v2 ∧
    (∀ lo hi, lo ≤ v.v0 → lo ≤ v.v1 → lo ≤ v.v2 → v.v0 ≤ hi → v.v1 ≤ hi → v.v2 ≤ hi →
      lo ≤ toCentroid v ∧ toCentroid v ≤ hi) := by
  have h1 : toCentroid v * 3 = v.v0 + v.v1 + v.v2 := by unfold toCentroid; ring
  refine ⟨h1, ?_, ?_⟩
  · rw [h1]; simp only [toEdges]; ring
  · intro lo hi a b c d e f
    constructor <;> linarith

/-- C40: a constant stays that constant everywhere. -/
theorem C40_constant (c : K) : toEdges ⟨c, c, c⟩ = ⟨c, c, c⟩ ∧ toCentroid (⟨c, c, c⟩ : V3 K) = c ∧
    toVertices ⟨c, c, c⟩ = (⟨c, c, c⟩ : V3 K) := by
  refine ⟨?_, ?_, ?_⟩
  · simp only [toEdges, V3.mk.injEq]; refine ⟨?_, ?_, ?_⟩ <;> ring
  · unfold toCentroid; field_simp; ring
  · simp only [toVertices, V3.mk.injEq]; refine ⟨?_, ?_, ?_⟩ <;> ring

/-! ## C38 -/

/-- The three values average to `m`. -/
def MeanIs (v : V3 K) (m : K) : Prop := v.v0 + v.v1 + v.v2 = 3 * m

/-- All three values lie in an interval. -/
def Within (lo hi : K) (v : V3 K) : Prop := (lo ≤ v.v0 ∧ v.v0 ≤ hi) ∧ (lo ≤ v.v1 ∧ v.v1 ≤ hi) ∧ (lo ≤ v.v2 ∧ v.v2 ≤ hi)

theorem scale_mean (qc phi : K) (v : V3 K) (h : MeanIs v qc) : MeanIs (scale qc phi v) qc := by
  unfold MeanIs scale at *
  simp only
  linear_combination phi * h

theorem toVertices_mean (qc : K) (e : V3 K) (h : MeanIs e qc) : MeanIs (toVertices e) qc := by
  unfold MeanIs toVertices at *
  simp only
  linear_combination h

theorem toEdges_mean (qc : K) (e : V3 K) (h : MeanIs e qc) :
    MeanIs ⟨1 / 2 * (e.v1 + e.v2), 1 / 2 * (e.v2 + e.v0), 1 / 2 * (e.v0 + e.v1)⟩ qc := by
  unfold MeanIs at *
  simp only
  linear_combination h

theorem phiAll_facts {beta qc : K} (n : List (Option K)) (v : V3 K) (hb : 0 ≤ beta) :
    0 ≤ phiAll beta qc n v ∧ phiAll beta qc n v ≤ 1 ∧
    (∀ x ∈ [v.v0, v.v1, v.v2], phiAll beta qc n v ≤ ratio qc (lowest qc n) (highest qc n) (x - qc) * beta) := by
  have hr : ∀ x, 0 ≤ ratio qc (lowest qc n) (highest qc n) (x - qc) :=
    fun x => ratio_nonneg (lowest_le qc n).1 (le_highest qc n).1
  unfold phiAll
  simp only
  generalize hp0 : phiStep beta (ratio qc (lowest qc n) (highest qc n) (v.v0 - qc)) 1 = p0
  generalize hp1 : phiStep beta (ratio qc (lowest qc n) (highest qc n) (v.v1 - qc)) p0 = p1
  generalize hp2 : phiStep beta (ratio qc (lowest qc n) (highest qc n) (v.v2 - qc)) p1 = p2
  have n0 : 0 ≤ p0 := hp0 ▸ phiStep_nonneg hb (hr _) zero_le_one
  have n1 : 0 ≤ p1 := hp1 ▸ phiStep_nonneg hb (hr _) n0
  have n2 : 0 ≤ p2 := hp2 ▸ phiStep_nonneg hb (hr _) n1
  have l0 := phiStep_le beta (ratio qc (lowest qc n) (highest qc n) (v.v0 - qc)) 1
  have l1 := phiStep_le beta (ratio qc (lowest qc n) (highest qc n) (v.v1 - qc)) p0
  have l2 := phiStep_le beta (ratio qc (lowest qc n) (highest qc n) (v.v2 - qc)) p1
  rw [hp0] at l0
  rw [hp1] at l1
  rw [hp2] at l2
  refine ⟨n2, l2.2.2, ?_⟩
  intro x hx
  simp only [List.mem_cons, List.not_mem_nil, or_false] at hx
  rcases hx with rfl | rfl | rfl
  · exact l2.1.trans (l1.1.trans l0.2.1)
  · exact l2.1.trans l1.2.1
  · exact l2.2.1

/-- Bounds implied by the limiting factor. -/
theorem scale_within {beta qc : K} (n : List (Option K)) (v : V3 K) (hb : 0 ≤ beta) :
    Within (qc + beta * (lowest qc n - qc)) (qc + beta * (highest qc n - qc)) (scale qc (phiAll beta qc n v) v) := by
  obtain ⟨h0, _, h2⟩ := phiAll_facts (qc := qc) n v hb
  have key : ∀ x ∈ [v.v0, v.v1, v.v2], _ := fun x hx =>
    scaled_bounds (lowest_le qc n).1 (le_highest qc n).1 hb h0 (h2 x hx)
  unfold Within scale
  simp only
  have k0 := key v.v0 (by simp)
  have k1 := key v.v1 (by simp)
  have k2 := key v.v2 (by simp)
  refine ⟨⟨?_, ?_⟩, ⟨?_, ?_⟩, ⟨?_, ?_⟩⟩ <;> linarith [k0.1, k0.2, k1.1, k1.2, k2.1, k2.2]

theorem within_mono {lo hi lo' hi' : K} {v : V3 K} (h : Within lo hi v) (h1 : lo' ≤ lo) (h2 : hi ≤ hi') : Within lo' hi' v := by
  obtain ⟨⟨a, b⟩, ⟨c, d⟩, ⟨e, f⟩⟩ := h
  exact ⟨⟨h1.trans a, b.trans h2⟩, ⟨h1.trans c, d.trans h2⟩, ⟨h1.trans e, f.trans h2⟩⟩

/-- `lo`/`hi` bound the cell and all its neighbours. -/
def NeighbourRange (qc : K) (n : List (Option K)) (lo hi : K) : Prop :=
  (lo ≤ qc ∧ qc ≤ hi) ∧ ∀ q, some q ∈ n → lo ≤ q ∧ q ≤ hi

theorem range_bounds {qc lo hi : K} {n : List (Option K)} (h : NeighbourRange qc n lo hi) :
    lo ≤ lowest qc n ∧ highest qc n ≤ hi := by
  constructor
  · rcases lowest_mem qc n with e | e
    · rw [e]; exact h.1.1
    · exact (h.2 _ e).1
  · rcases highest_mem qc n with e | e
    · rw [e]; exact h.1.2
    · exact (h.2 _ e).2

/-- C38: the vertex limiter keeps the mean of vertices and of edges; with `0 ≤ beta ≤ 1` no vertex (hence no edge) value
leaves the range of the cell and its neighbours, and with larger `beta` the excursion from the cell value is at most `beta`
times that range. -/
theorem C38_vertex_limiter (beta qc : K) (n : List (Option K)) (v : V3 K) (hm : MeanIs v qc) (hb : 0 ≤ beta) (lo hi : K)
    (hr : NeighbourRange qc n lo hi) :
    MeanIs (limitVertices beta qc n v).1 qc ∧ MeanIs (limitVertices beta qc n v).2 qc ∧
    Within (qc + beta * (lo - qc)) (qc + beta * (hi - qc)) (limitVertices beta qc n v).1 ∧
    Within (qc + beta * (lo - qc)) (qc + beta * (hi - qc)) (limitVertices beta qc n v).2 ∧
    (beta ≤ 1 → Within lo hi (limitVertices beta qc n v).1 ∧ Within lo hi (limitVertices beta qc n v).2) := by
  obtain ⟨hl, hh⟩ := range_bounds hr
  have hw : Within (qc + beta * (lo - qc)) (qc + beta * (hi - qc)) (limitVertices beta qc n v).1 := by
    refine within_mono (scale_within n v hb) ?_ ?_
    · have := mul_le_mul_of_nonneg_left hl hb; linarith
    · have := mul_le_mul_of_nonneg_left hh hb; linarith
  have hw2 : ∀ a b, Within a b (limitVertices beta qc n v).1 → Within a b (limitVertices beta qc n v).2 := by
    intro a b h
    obtain ⟨⟨h1, h2⟩, ⟨h3, h4⟩, ⟨h5, h6⟩⟩ := h
    simp only [limitVertices, Within] at *
    refine ⟨⟨?_, ?_⟩, ⟨?_, ?_⟩, ⟨?_, ?_⟩⟩ <;> linarith
  have hmv : MeanIs (limitVertices beta qc n v).1 qc := scale_mean _ _ _ hm
  refine ⟨hmv, toEdges_mean _ _ hmv, hw, hw2 _ _ hw, ?_⟩
  intro hb1
  have hw' : Within lo hi (limitVertices beta qc n v).1 := by
    refine within_mono hw ?_ ?_
    · have : 0 ≤ (1 - beta) * (qc - lo) := mul_nonneg (by linarith) (by linarith [hr.1.1])
      linarith
    · have : 0 ≤ (1 - beta) * (hi - qc) := mul_nonneg (by linarith) (by linarith [hr.1.2])
      linarith
  exact ⟨hw', hw2 _ _ hw'⟩

/-- C38: the edge limiter keeps the mean of edges and of vertices, bounds the edge values as above, and the vertex values
derived from them stay within three times the range (they are `qc` minus twice the opposite edge jump). -/
theorem C38_edge_limiter (beta qc : K) (n : List (Option K)) (e : V3 K) (hm : MeanIs e qc) (hb : 0 ≤ beta) (lo hi : K)
    (hr : NeighbourRange qc n lo hi) :
    MeanIs (limitEdges beta qc n e).1 qc ∧ MeanIs (limitEdges beta qc n e).2 qc ∧
    Within (qc + beta * (lo - qc)) (qc + beta * (hi - qc)) (limitEdges beta qc n e).1 ∧
    Within (qc - 2 * (beta * (hi - qc))) (qc - 2 * (beta * (lo - qc))) (limitEdges beta qc n e).2 ∧
    toEdges (limitEdges beta qc n e).2 = (limitEdges beta qc n e).1 ∧
    (beta ≤ 1 → Within lo hi (limitEdges beta qc n e).1) := by
  obtain ⟨hl, hh⟩ := range_bounds hr
  have hw : Within (qc + beta * (lo - qc)) (qc + beta * (hi - qc)) (limitEdges beta qc n e).1 := by
    refine within_mono (scale_within n e hb) ?_ ?_
    · have := mul_le_mul_of_nonneg_left hl hb; linarith
    · have := mul_le_mul_of_nonneg_left hh hb; linarith
  have hme : MeanIs (limitEdges beta qc n e).1 qc := scale_mean _ _ _ hm
  refine ⟨hme, toVertices_mean _ _ hme, hw, ?_, C40_edges_vertices_edges _, ?_⟩
  · obtain ⟨⟨h1, h2⟩, ⟨h3, h4⟩, ⟨h5, h6⟩⟩ := hw
    have hs := hme
    unfold MeanIs at hs
    have e2 : (limitEdges beta qc n e).2 = toVertices (limitEdges beta qc n e).1 := rfl
    rw [e2]
    generalize (limitEdges beta qc n e).1 = w at *
    unfold Within toVertices
    simp only
    refine ⟨⟨?_, ?_⟩, ⟨?_, ?_⟩, ⟨?_, ?_⟩⟩ <;> linarith
  · intro hb1
    refine within_mono hw ?_ ?_
    · have : 0 ≤ (1 - beta) * (qc - lo) := mul_nonneg (by linarith) (by linarith [hr.1.1])
      linarith
    · have : 0 ≤ (1 - beta) * (hi - qc) := mul_nonneg (by linarith) (by linarith [hr.1.2])
      linarith

/-- C38: extrapolating with a gradient and limiting keeps the mean equal to the centroid value for every gradient, because the
centroid is the mean of the three corners. -/
theorem C38_extrapolate_and_limit (beta x y qc a b : K) (X Y : V3 K) (n : List (Option K)) (hb : 0 ≤ beta)
    (hx : MeanIs X x) (hy : MeanIs Y y) (lo hi : K) (hr : NeighbourRange qc n lo hi) :
    MeanIs (extrapolateAndLimit beta x y qc a b X Y n).1 qc ∧ MeanIs (extrapolateAndLimit beta x y qc a b X Y n).2 qc ∧
    Within (qc + beta * (lo - qc)) (qc + beta * (hi - qc)) (extrapolateAndLimit beta x y qc a b X Y n).1 ∧
    (beta ≤ 1 → Within lo hi (extrapolateAndLimit beta x y qc a b X Y n).1) := by
  have hm : MeanIs (extrapolate x y qc a b X Y) qc := by
    unfold MeanIs extrapolate at *
    simp only
    linear_combination a * hx + b * hy
  obtain ⟨h1, h2, h3, _, _, h6⟩ := C38_edge_limiter beta qc n _ (toEdges_mean qc _ hm) hb lo hi hr
  exact ⟨h1, h2, h3, h6⟩

/-- C38: the limiter does nothing to values already inside the range when `beta ≥ 1`. -/
theorem C38_no_limiting_inside_range (beta qc : K) (n : List (Option K)) (v : V3 K) (hb : 1 ≤ beta)
    (hw : Within (lowest qc n) (highest qc n) v) : scale qc (phiAll beta qc n v) v = v := by
  obtain ⟨⟨h1, h2⟩, ⟨h3, h4⟩, ⟨h5, h6⟩⟩ := hw
  have hphi : phiAll beta qc n v = 1 := by
    unfold phiAll
    simp only
    rw [phiStep_one (ratio_ge_one hb (by linarith) (by linarith)), phiStep_one (ratio_ge_one hb (by linarith) (by linarith)),
      phiStep_one (ratio_ge_one hb (by linarith) (by linarith))]
  rw [hphi]
  obtain ⟨a, b, c⟩ := v
  simp [scale]

/-- C38: edge limiting against the single neighbour across each edge: the value on edge `i` stays within the range of the
cell and that neighbour (the cell value itself on a boundary edge). -/
theorem C38_edge_by_neighbour (beta qc : K) (n0 n1 n2 : Option K) (e : V3 K) (hm : MeanIs e qc) (hb : 0 ≤ beta)
    (hb1 : beta ≤ 1) :
    MeanIs (limitEdgesEach beta qc n0 n1 n2 e).1 qc ∧ MeanIs (limitEdgesEach beta qc n0 n1 n2 e).2 qc ∧
    (lowest qc [n0] ≤ (limitEdgesEach beta qc n0 n1 n2 e).1.v0 ∧ (limitEdgesEach beta qc n0 n1 n2 e).1.v0 ≤ highest qc [n0]) ∧
    (lowest qc [n1] ≤ (limitEdgesEach beta qc n0 n1 n2 e).1.v1 ∧ (limitEdgesEach beta qc n0 n1 n2 e).1.v1 ≤ highest qc [n1]) ∧
    (lowest qc [n2] ≤ (limitEdgesEach beta qc n0 n1 n2 e).1.v2 ∧ (limitEdgesEach beta qc n0 n1 n2 e).1.v2 ≤ highest qc [n2]) := by
  have hr : ∀ n x, 0 ≤ ratio qc (lowest qc [n]) (highest qc [n]) (x - qc) :=
    fun n x => ratio_nonneg (lowest_le qc _).1 (le_highest qc _).1
  have hme : MeanIs (limitEdgesEach beta qc n0 n1 n2 e).1 qc := scale_mean _ _ _ hm
  refine ⟨hme, toVertices_mean _ _ hme, ?_⟩
  have fac : 0 ≤ phiEach beta qc n0 n1 n2 e ∧
      phiEach beta qc n0 n1 n2 e ≤ ratio qc (lowest qc [n0]) (highest qc [n0]) (e.v0 - qc) * beta ∧
      phiEach beta qc n0 n1 n2 e ≤ ratio qc (lowest qc [n1]) (highest qc [n1]) (e.v1 - qc) * beta ∧
      phiEach beta qc n0 n1 n2 e ≤ ratio qc (lowest qc [n2]) (highest qc [n2]) (e.v2 - qc) * beta := by
    unfold phiEach
    simp only
    generalize hp0 : phiStep beta (ratio qc (lowest qc [n0]) (highest qc [n0]) (e.v0 - qc)) 1 = p0
    generalize hp1 : phiStep beta (ratio qc (lowest qc [n1]) (highest qc [n1]) (e.v1 - qc)) p0 = p1
    have m0 : 0 ≤ p0 := hp0 ▸ phiStep_nonneg hb (hr _ _) zero_le_one
    have m1 : 0 ≤ p1 := hp1 ▸ phiStep_nonneg hb (hr _ _) m0
    have l0 := phiStep_le beta (ratio qc (lowest qc [n0]) (highest qc [n0]) (e.v0 - qc)) 1
    have l1 := phiStep_le beta (ratio qc (lowest qc [n1]) (highest qc [n1]) (e.v1 - qc)) p0
    have l2 := phiStep_le beta (ratio qc (lowest qc [n2]) (highest qc [n2]) (e.v2 - qc)) p1
    rw [hp0] at l0
    rw [hp1] at l1
    exact ⟨phiStep_nonneg hb (hr _ _) m1, l2.1.trans (l1.1.trans l0.2.1), l2.1.trans l1.2.1, l2.2.1⟩
  have key : ∀ n x, phiEach beta qc n0 n1 n2 e ≤ ratio qc (lowest qc [n]) (highest qc [n]) (x - qc) * beta →
      lowest qc [n] ≤ qc + phiEach beta qc n0 n1 n2 e * (x - qc) ∧
      qc + phiEach beta qc n0 n1 n2 e * (x - qc) ≤ highest qc [n] := by
    intro n x hle
    have h1 := (lowest_le qc [n]).1
    have h2 := (le_highest qc [n]).1
    obtain ⟨k1, k2⟩ := scaled_bounds h1 h2 hb fac.1 hle
    have a1 : 0 ≤ (1 - beta) * (qc - lowest qc [n]) := mul_nonneg (by linarith) (by linarith)
    have a2 : 0 ≤ (1 - beta) * (highest qc [n] - qc) := mul_nonneg (by linarith) (by linarith)
    constructor <;> linarith
  exact ⟨key n0 _ fac.2.1, key n1 _ fac.2.2.1, key n2 _ fac.2.2.2⟩

/-- C38: bounding vertices from below keeps the mean and respects the bound at every vertex, provided the centroid value is
not below any of the three bounds. -/
theorem C38_bound_below (qc : K) (b v : V3 K) (hm : MeanIs v qc) (h0 : b.v0 ≤ qc) (h1 : b.v1 ≤ qc) (h2 : b.v2 ≤ qc) :
    MeanIs (boundBelow qc b v) qc ∧ b.v0 ≤ (boundBelow qc b v).v0 ∧ b.v1 ≤ (boundBelow qc b v).v1 ∧
    b.v2 ≤ (boundBelow qc b v).v2 := by
  refine ⟨scale_mean _ _ _ hm, ?_⟩
  have hr : ∀ bb x, bb ≤ qc → 0 ≤ (if x - qc < 0 then (bb - qc) / (x - qc) else 1) := by
    intro bb x hbb
    split_ifs with h
    · exact div_nonneg_of_nonpos (by linarith) h.le
    · exact zero_le_one
  have fac : 0 ≤ phiBelow qc b v ∧
      phiBelow qc b v ≤ (if v.v0 - qc < 0 then (b.v0 - qc) / (v.v0 - qc) else 1) ∧
      phiBelow qc b v ≤ (if v.v1 - qc < 0 then (b.v1 - qc) / (v.v1 - qc) else 1) ∧
      phiBelow qc b v ≤ (if v.v2 - qc < 0 then (b.v2 - qc) / (v.v2 - qc) else 1) := by
    unfold phiBelow
    simp only
    generalize hr0 : (if v.v0 - qc < 0 then (b.v0 - qc) / (v.v0 - qc) else 1) = r0
    generalize hr1 : (if v.v1 - qc < 0 then (b.v1 - qc) / (v.v1 - qc) else 1) = r1
    generalize hr2 : (if v.v2 - qc < 0 then (b.v2 - qc) / (v.v2 - qc) else 1) = r2
    have n0 : 0 ≤ r0 := hr0 ▸ hr _ _ h0
    have n1 : 0 ≤ r1 := hr1 ▸ hr _ _ h1
    have n2 : 0 ≤ r2 := hr2 ▸ hr _ _ h2
    have l0 := phiStep_le 1 r0 1
    have l1 := phiStep_le 1 r1 (phiStep 1 r0 1)
    have l2 := phiStep_le 1 r2 (phiStep 1 r1 (phiStep 1 r0 1))
    rw [mul_one] at l0 l1 l2
    refine ⟨phiStep_nonneg zero_le_one n2 (phiStep_nonneg zero_le_one n1 (phiStep_nonneg zero_le_one n0 zero_le_one)),
      l2.1.trans (l1.1.trans l0.2.1), l2.1.trans l1.2.1, l2.2.1⟩
  have key : ∀ bb x, bb ≤ qc → phiBelow qc b v ≤ (if x - qc < 0 then (bb - qc) / (x - qc) else 1) →
      bb ≤ qc + phiBelow qc b v * (x - qc) := by
    intro bb x hbb hle
    split_ifs at hle with h
    · have e : (bb - qc) / (x - qc) * (x - qc) = bb - qc := div_mul_cancel₀ _ h.ne
      have := mul_le_mul_of_nonpos_right hle h.le
      linarith
    · have : 0 ≤ phiBelow qc b v * (x - qc) := mul_nonneg fac.1 (not_lt.mp h)
      linarith
  exact ⟨key _ _ h0 fac.2.1, key _ _ h1 fac.2.2.1, key _ _ h2 fac.2.2.2⟩

/-- C38: without that proviso the bound is not respected: the factor turns negative and pushes other vertices down. -/
theorem C38_bound_below_needs_centroid_above : ∃ (qc : ℚ) (b v : V3 ℚ), MeanIs v qc ∧ (boundBelow qc b v).v0 < b.v0 ∧
    (boundBelow qc b v).v0 < v.v0 :=
  ⟨0, ⟨1, 1, 1⟩, ⟨2, -1, -1⟩, by unfold MeanIs; norm_num, by decide +kernel, by decide +kernel⟩

example : limitVertices (1 : ℚ) 1 [some 2, none, some 0] ⟨4, 0, -1⟩ = (⟨2, 2 / 3, 1 / 3⟩, ⟨1 / 2, 7 / 6, 4 / 3⟩) := by
  decide +kernel

/-- C38: limiting of gradients by existing neighbours only: the mean is kept and the value on every edge that has a neighbour
stays within the range of the cell and that neighbour. -/
theorem C38_gradient_by_neighbour (beta qc : K) (n0 n1 n2 : Option K) (e : V3 K) (hm : MeanIs e qc) (hb : 0 ≤ beta)
    (hb1 : beta ≤ 1) :
    MeanIs (limitEdgesSkip beta qc n0 n1 n2 e).1 qc ∧ MeanIs (limitEdgesSkip beta qc n0 n1 n2 e).2 qc ∧
    (∀ q, n0 = some q → min qc q ≤ (limitEdgesSkip beta qc n0 n1 n2 e).1.v0 ∧
      (limitEdgesSkip beta qc n0 n1 n2 e).1.v0 ≤ max qc q) ∧
    (∀ q, n1 = some q → min qc q ≤ (limitEdgesSkip beta qc n0 n1 n2 e).1.v1 ∧
      (limitEdgesSkip beta qc n0 n1 n2 e).1.v1 ≤ max qc q) ∧
    (∀ q, n2 = some q → min qc q ≤ (limitEdgesSkip beta qc n0 n1 n2 e).1.v2 ∧
      (limitEdgesSkip beta qc n0 n1 n2 e).1.v2 ≤ max qc q) := by
  have hme : MeanIs (limitEdgesSkip beta qc n0 n1 n2 e).1 qc := scale_mean _ _ _ hm
  refine ⟨hme, toVertices_mean _ _ hme, ?_⟩
  let step : Option K → K → K → K := fun n x phi => match n with
    | none => phi
    | some q => phiStep beta (ratio qc (min qc q) (max qc q) (x - qc)) phi
  have hphi : phiSkip beta qc n0 n1 n2 e = step n2 e.v2 (step n1 e.v1 (step n0 e.v0 1)) := rfl
  have hle : ∀ n x phi, step n x phi ≤ phi := by
    intro n x phi
    cases n with
    | none => exact le_refl _
    | some q => exact (phiStep_le _ _ _).1
  have hnn : ∀ n x phi, 0 ≤ phi → 0 ≤ step n x phi := by
    intro n x phi hp
    cases n with
    | none => exact hp
    | some q => exact phiStep_nonneg hb (ratio_nonneg (min_le_left _ _) (le_max_left _ _)) hp
  have hrat : ∀ q x phi, step (some q) x phi ≤ ratio qc (min qc q) (max qc q) (x - qc) * beta :=
    fun q x phi => (phiStep_le _ _ _).2.1
  have h0 : 0 ≤ phiSkip beta qc n0 n1 n2 e := by
    rw [hphi]; exact hnn _ _ _ (hnn _ _ _ (hnn _ _ _ zero_le_one))
  have key : ∀ q x, phiSkip beta qc n0 n1 n2 e ≤ ratio qc (min qc q) (max qc q) (x - qc) * beta →
      min qc q ≤ qc + phiSkip beta qc n0 n1 n2 e * (x - qc) ∧
      qc + phiSkip beta qc n0 n1 n2 e * (x - qc) ≤ max qc q := by
    intro q x hle'
    obtain ⟨k1, k2⟩ := scaled_bounds (min_le_left qc q) (le_max_left qc q) hb h0 hle'
    have a1 : 0 ≤ (1 - beta) * (qc - min qc q) := mul_nonneg (by linarith) (by linarith [min_le_left qc q])
    have a2 : 0 ≤ (1 - beta) * (max qc q - qc) := mul_nonneg (by linarith) (by linarith [le_max_left qc q])
    constructor <;> linarith
  refine ⟨?_, ?_, ?_⟩
  · intro q hq
    apply key q e.v0
    rw [hphi, hq]
    exact (hle _ _ _).trans ((hle _ _ _).trans (hrat _ _ _))
  · intro q hq
    apply key q e.v1
    rw [hphi, hq]
    exact (hle _ _ _).trans (hrat _ _ _)
  · intro q hq
    apply key q e.v2
    rw [hphi, hq]
    exact hrat _ _ _

/-! ## C41 -/

/-- C41: the three-point gradient recovers every plane exactly when the points are not collinear. -/
theorem C41_gradient_exact (p a b x0 y0 x1 y1 x2 y2 : K)
    (hdet : (y2 - y0) * (x1 - x0) - (y1 - y0) * (x2 - x0) ≠ 0) :
    gradient x0 y0 x1 y1 x2 y2 (p + a * x0 + b * y0) (p + a * x1 + b * y1) (p + a * x2 + b * y2) = (a, b) := by
  unfold gradient
  simp only [Prod.mk.injEq]
  constructor
  · rw [div_eq_iff hdet]; ring
  · rw [div_eq_iff hdet]; ring

/-- C41: for any data the plane through the first point with that gradient passes through all three points. -/
theorem C41_gradient_interpolates (x0 y0 x1 y1 x2 y2 q0 q1 q2 : K)
    (hdet : (y2 - y0) * (x1 - x0) - (y1 - y0) * (x2 - x0) ≠ 0) :
    q0 + (gradient x0 y0 x1 y1 x2 y2 q0 q1 q2).1 * (x1 - x0) + (gradient x0 y0 x1 y1 x2 y2 q0 q1 q2).2 * (y1 - y0) = q1 ∧
    q0 + (gradient x0 y0 x1 y1 x2 y2 q0 q1 q2).1 * (x2 - x0) + (gradient x0 y0 x1 y1 x2 y2 q0 q1 q2).2 * (y2 - y0) = q2 := by
  unfold gradient
  simp only
  constructor
  · field_simp; ring
  · field_simp; ring

/-- C41: the two-point gradient matches both values and vanishes across the connecting line. -/
theorem C41_gradient2 (x0 y0 x1 y1 q0 q1 : K) (hne : x0 ≠ x1 ∨ y0 ≠ y1) :
    q0 + (gradient2 x0 y0 x1 y1 q0 q1).1 * (x1 - x0) + (gradient2 x0 y0 x1 y1 q0 q1).2 * (y1 - y0) = q1 ∧
    (gradient2 x0 y0 x1 y1 q0 q1).1 * (y0 - y1) + (gradient2 x0 y0 x1 y1 q0 q1).2 * (x1 - x0) = 0 := by
  have hd : (x1 - x0) * (x1 - x0) + (y1 - y0) * (y1 - y0) ≠ 0 := by
    rcases hne with h | h
    · have : 0 < (x1 - x0) * (x1 - x0) := mul_self_pos.mpr (sub_ne_zero.mpr (Ne.symm h))
      have := mul_self_nonneg (y1 - y0)
      linarith
    · have : 0 < (y1 - y0) * (y1 - y0) := mul_self_pos.mpr (sub_ne_zero.mpr (Ne.symm h))
      have := mul_self_nonneg (x1 - x0)
      intro h0; linarith
  unfold gradient2
  simp only
  generalize hD : (x1 - x0) * (x1 - x0) + (y1 - y0) * (y1 - y0) = D at *
  constructor
  · field_simp
    linear_combination (q1 - q0) * hD
  · field_simp; ring

/-- C41: extrapolating the centroid value of a plane with its gradient gives the plane at the three corners, and limiting
against neighbours leaves it unchanged if the edge values are already in the neighbour range and `beta ≥ 1`. -/
theorem C41_plane_reproduced (beta p a b x y : K) (X Y : V3 K) (n : List (Option K)) (hb : 1 ≤ beta)
    (hin : Within (lowest (p + a * x + b * y) n) (highest (p + a * x + b * y) n)
      (toEdges ⟨p + a * X.v0 + b * Y.v0, p + a * X.v1 + b * Y.v1, p + a * X.v2 + b * Y.v2⟩)) :
    extrapolate x y (p + a * x + b * y) a b X Y = ⟨p + a * X.v0 + b * Y.v0, p + a * X.v1 + b * Y.v1, p + a * X.v2 + b * Y.v2⟩ ∧
    (extrapolateAndLimit beta x y (p + a * x + b * y) a b X Y n).2 =
      ⟨p + a * X.v0 + b * Y.v0, p + a * X.v1 + b * Y.v1, p + a * X.v2 + b * Y.v2⟩ := by
  have h1 : extrapolate x y (p + a * x + b * y) a b X Y =
      ⟨p + a * X.v0 + b * Y.v0, p + a * X.v1 + b * Y.v1, p + a * X.v2 + b * Y.v2⟩ := by
    unfold extrapolate
    simp only [V3.mk.injEq]
    refine ⟨?_, ?_, ?_⟩ <;> ring
  refine ⟨h1, ?_⟩
  unfold extrapolateAndLimit limitEdges
  simp only
  rw [h1]
  simp only
  have e : (⟨1 / 2 * ((p + a * X.v1 + b * Y.v1) + (p + a * X.v2 + b * Y.v2)), 1 / 2 * ((p + a * X.v2 + b * Y.v2) + (p + a * X.v0 + b * Y.v0)),
      1 / 2 * ((p + a * X.v0 + b * Y.v0) + (p + a * X.v1 + b * Y.v1))⟩ : V3 K) =
      toEdges ⟨p + a * X.v0 + b * Y.v0, p + a * X.v1 + b * Y.v1, p + a * X.v2 + b * Y.v2⟩ := by
    simp only [toEdges, V3.mk.injEq, true_and, and_true]
    ring
  rw [e, C38_no_limiting_inside_range beta _ n _ hb hin, C40_vertices_edges_vertices]

example : gradient (0 : ℚ) 0 1 0 0 1 5 7 2 = (2, -3) := by decide +kernel

end Verif.Quantity
