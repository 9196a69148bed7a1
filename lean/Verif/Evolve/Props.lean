import Verif.Evolve.Lemmas
import Mathlib.Tactic.NormNum
import Mathlib.Algebra.Order.Ring.Rat

/-!
# Properties C01-C04: the evolve loop
-/

set_option linter.unusedSectionVars false

namespace Verif.Evolve

variable {K : Type*} [Field K] [LinearOrder K] [IsStrictOrderedRing K]

/-- The absolute output times denoted by `ticks`, in the vocabulary of the specification. -/
theorem ticks_eq (start t ys : K) (n : ℕ) :
    ticks start (t + ys) ys n = (List.range n).map (fun k : ℕ => (start + t) + ((k : K) + 1) * ys) := by
  unfold ticks
  apply List.map_congr_left
  intro k _
  ring

/-- Result of a call that enters the loop, for an arbitrary domain state. -/
theorem evolve_of_go {P : Params K} {s0 s : St K} {a : Args K} {ys : K} {skip : Bool} (hys : 0 < ys) (heps : 0 ≤ P.eps)
    (h : prepare P s0 a = .go s ys skip) (fluxes : List K) :
    ∃ f, s.final = some f ∧ ∃ n : ℕ, (∀ k : ℕ, k < n → (s.start + s.time) + ((k : K) + 1) * ys < (s.start + f) - P.eps) ∧
      (((evolve P s0 a fluxes).2.1 = .done ∧ CountBefore (s.start + s.time) ys (s.start + f) P.eps n ∧
        (evolve P s0 a fluxes).1 = (if skip then [] else [s.start + s.time]) ++
          schedule (s.start + s.time) ys (s.start + f) n ∧
        (evolve P s0 a fluxes).2.2.time = f ∧ (evolve P s0 a fluxes).2.2.start = s.start ∧ (evolve P s0 a fluxes).2.2.called = true) ∨
       (((evolve P s0 a fluxes).2.1 = .running ∨ (evolve P s0 a fluxes).2.1 = .raised .tooSmall) ∧
        (evolve P s0 a fluxes).1 = (if skip then [] else [s.start + s.time]) ++
          (List.range n).map (fun k : ℕ => (s.start + s.time) + ((k : K) + 1) * ys))) := by
  obtain ⟨-, -, -, -, hy, hcal, -, -, f, hf, hle, -⟩ := prepare_go h
  refine ⟨f, hf, ?_⟩
  obtain ⟨n, hn, hr⟩ := loop_yields P ys hys heps f fluxes s ⟨hf, hle, by rw [hy]; linarith⟩
  have hn' : ∀ k : ℕ, k < n → (s.start + s.time) + ((k : K) + 1) * ys < (s.start + f) - P.eps := by
    intro k hk
    have := hn k hk
    rw [hy] at this
    linarith
  refine ⟨n, hn', ?_⟩
  unfold evolve
  rw [h]
  simp only
  rw [hy, ticks_eq, hcal] at hr
  rcases hr with ⟨a1, a2, a3, a4, a5⟩ | ⟨a1, a2⟩
  · left
    cases skip <;> simp only [Bool.false_eq_true, if_false, if_true]
    · refine ⟨a1, ⟨hn', by linarith⟩, by rw [a3]; rfl, a4, a5⟩
    · refine ⟨a1, ⟨hn', by linarith⟩, by rw [a3]; rfl, a4, a5⟩
  · right
    cases skip <;> simp only [Bool.false_eq_true, if_false, if_true]
    · exact ⟨a1, by rw [a2]; rfl⟩
    · exact ⟨a1, by rw [a2]; rfl⟩

/-- The count of requested times before the end is unique. -/
theorem CountBefore.unique {t0 ys tf eps : K} {n m : ℕ}
    (hn : CountBefore t0 ys tf eps n) (hm : CountBefore t0 ys tf eps m) : n = m := by
  by_contra hne
  rcases lt_or_gt_of_ne hne with h | h
  · have := hm.1 n h; linarith [hn.2]
  · have := hn.1 m h; linarith [hm.2]

/-- The state in which the first `evolve` call enters the loop. -/
def freshStart (P : Params K) (start ys tf : K) : St K :=
  { start := start, evolveStart := 0, time := 0, called := true, final := some (tf - start),
    yieldTime := 0 + ys, timestep := 0, small := 0, order := P.defaultOrder }

theorem prepare_fresh (P : Params K) (start ys tf : K) (htf : start ≤ tf) :
    prepare P (fresh P start) ⟨some ys, some tf, none, false⟩ =
      .go (freshStart P start ys tf) ys false := by
  simp [prepare, fresh, freshStart, htf]

/-! ## C01 -/

/-- **C01 (completed runs).** A completed `evolve(yieldstep=ys, finaltime=tf)` on a fresh domain yields the start
time, every requested time strictly before `tf - eps`, and finally exactly `tf`; the model time is then `tf`. -/
theorem C01_evolve_yields_requested_times (P : Params K) (heps : 0 ≤ P.eps) (start ys tf : K) (hys : 0 < ys)
    (htf : start ≤ tf) (fluxes : List K)
    (hdone : (evolve P (fresh P start) ⟨some ys, some tf, none, false⟩ fluxes).2.1 = .done) :
    (∃ n, CountBefore start ys tf P.eps n ∧
      (evolve P (fresh P start) ⟨some ys, some tf, none, false⟩ fluxes).1 = start :: schedule start ys tf n) ∧
    (evolve P (fresh P start) ⟨some ys, some tf, none, false⟩ fluxes).2.2.start +
      (evolve P (fresh P start) ⟨some ys, some tf, none, false⟩ fluxes).2.2.time = tf := by
  obtain ⟨f, hf, n, hn, hr⟩ := evolve_of_go hys heps (prepare_fresh P start ys tf htf) fluxes
  simp only [freshStart, Option.some.injEq] at hf
  subst hf
  rcases hr with ⟨a1, a2, a3, a4, a5⟩ | ⟨a1, a2⟩
  · simp only [freshStart, add_zero, add_sub_cancel, Bool.false_eq_true, if_false] at a2 a3
    refine ⟨⟨n, a2, by rw [a3]; rfl⟩, by rw [a4, a5.1]; simp [freshStart]⟩
  · rw [hdone] at a1
    simp at a1

/-- **C01 (all runs).** At every moment, whatever the flux history, the times yielded so far are an initial segment of the
requested list (nothing skipped, repeated, reordered or invented), and the only exception that can end the run is the
too-small-timestep one. -/
theorem C01_evolve_yields_prefix (P : Params K) (heps : 0 ≤ P.eps) (start ys tf : K) (hys : 0 < ys)
    (htf : start ≤ tf) (fluxes : List K) (n : ℕ) (hn : CountBefore start ys tf P.eps n) :
    (evolve P (fresh P start) ⟨some ys, some tf, none, false⟩ fluxes).1 <+: start :: schedule start ys tf n ∧
    (∀ e, (evolve P (fresh P start) ⟨some ys, some tf, none, false⟩ fluxes).2.1 = .raised e → e = .tooSmall) := by
  obtain ⟨f, hf, m, hm, hr⟩ := evolve_of_go hys heps (prepare_fresh P start ys tf htf) fluxes
  simp only [freshStart, Option.some.injEq] at hf
  subst hf
  rcases hr with ⟨a1, a2, a3, a4, a5⟩ | ⟨a1, a2⟩
  · simp only [freshStart, add_zero, add_sub_cancel, Bool.false_eq_true, if_false] at a2 a3
    have := CountBefore.unique a2 hn
    subst this
    rw [a3, a1]
    exact ⟨List.prefix_refl _, by simp⟩
  · simp only [freshStart, add_zero, add_sub_cancel, Bool.false_eq_true, if_false] at a2 hm
    refine ⟨?_, ?_⟩
    · rw [a2]
      have hmn : m ≤ n := by
        by_contra hlt
        have := hm n (by omega)
        linarith [hn.2]
      simp only [List.cons_append, List.nil_append]
      rw [List.cons_prefix_cons]
      refine ⟨rfl, ?_⟩
      unfold schedule
      refine List.IsPrefix.trans ?_ (List.prefix_append _ _)
      apply List.IsPrefix.map
      rw [List.prefix_iff_eq_take]
      simp [List.take_range, hmn]
    · intro e he
      rcases a1 with a1 | a1 <;> rw [a1] at he <;> simp_all

/-- The requested list is strictly increasing, so C01 says the yields are. -/
theorem C01_schedule_strictly_increasing (start ys tf eps : K) (hys : 0 < ys) (heps : 0 ≤ eps) (htf : start < tf)
    (n : ℕ) (hn : CountBefore start ys tf eps n) : (start :: schedule start ys tf n).Pairwise (· < ·) := by
  rw [List.pairwise_cons]
  constructor
  · intro x hx
    simp only [schedule, List.mem_append, List.mem_map, List.mem_range, List.mem_singleton] at hx
    rcases hx with ⟨k, _, rfl⟩ | rfl
    · have : (0 : K) < ((k : K) + 1) * ys := by positivity
      linarith
    · exact htf
  · unfold schedule
    rw [List.pairwise_append]
    refine ⟨?_, by simp, ?_⟩
    · rw [List.pairwise_map]
      refine List.Pairwise.imp ?_ List.pairwise_lt_range
      intro a b hab
      have : (a : K) < (b : K) := by exact_mod_cast hab
      have := mul_lt_mul_of_pos_right this hys
      linarith
    · intro x hx y hy
      simp only [List.mem_map, List.mem_range, List.mem_singleton] at hx hy
      obtain ⟨k, hk, rfl⟩ := hx
      subst hy
      have := hn.1 k hk
      linarith

/-- **C01 (termination).** If the flux-limited timestep stays above some positive bound and the resulting step is not
below the minimum step, the run completes: there is a number of internal steps after which the generator has yielded the
whole requested list. -/
theorem C01_evolve_completes [Archimedean K] (P : Params K) (heps : 0 ≤ P.eps) (start ys tf δ : K) (hys : 0 < ys)
    (htf : start ≤ tf) (hδ : 0 < δ) (hcfl : 0 < P.cfl) (hmax : 0 < P.maxStep) (hfix : P.fixedFlux = none)
    (hmin1 : P.minStep ≤ P.cfl * δ) (hmin2 : P.minStep ≤ P.maxStep) :
    ∃ N : ℕ, ∀ fluxes : List K, (∀ x ∈ fluxes, δ ≤ x) → N ≤ fluxes.length →
      (evolve P (fresh P start) ⟨some ys, some tf, none, false⟩ fluxes).2.1 = .done ∧
      ∃ n, CountBefore start ys tf P.eps n ∧
      (evolve P (fresh P start) ⟨some ys, some tf, none, false⟩ fluxes).1 = start :: schedule start ys tf n := by
  set d := min (P.cfl * δ) P.maxStep with hd
  have hdpos : 0 < d := lt_min (mul_pos hcfl hδ) hmax
  obtain ⟨N, hN⟩ := exists_nat_gt ((tf - start) / d + (tf - start - ys) / ys + 1)
  refine ⟨N, ?_⟩
  intro fluxes hx hlen
  have hraw : ∀ x ∈ fluxes, d ≤ rawStep P x := by
    intro x hxm
    simp only [rawStep, hfix, Option.getD_none, hd]
    exact min_le_min_right _ (mul_le_mul_of_nonneg_left (hx x hxm) hcfl.le)
  have hdone : (evolve P (fresh P start) ⟨some ys, some tf, none, false⟩ fluxes).2.1 = .done := by
    have hgo := prepare_fresh P start ys tf htf
    unfold evolve
    rw [hgo]
    simp only [Bool.false_eq_true, if_false]
    generalize hs : freshStart P start ys tf = s
    have hi : Inv s (tf - start) := by
      subst hs; exact ⟨rfl, by simpa [freshStart] using htf, by simpa [freshStart] using hys⟩
    have hnr := loop_not_raised P ys hys heps (tf - start) fluxes s hi
      (fun x hxm => le_trans (le_min hmin1 hmin2) (hraw x hxm))
    cases hst : (loop P ys s fluxes).2.1 with
    | done => rfl
    | raised e => exact absurd hst (hnr e)
    | running =>
      exfalso
      have := loop_running_bound P ys hys heps (tf - start) d hdpos fluxes s hi (by subst hs; simp [freshStart]) hraw hst
      have h2 : (N : K) ≤ (fluxes.length : K) := by exact_mod_cast hlen
      subst hs
      simp only [freshStart, sub_zero, zero_add] at this
      linarith
  exact ⟨hdone, (C01_evolve_yields_requested_times P heps start ys tf hys htf fluxes hdone).1⟩

/-- **C01 (limit of the claim).** When the final time equals the start time the same time is yielded twice, so "no time is
repeated" needs `start < tf`. -/
theorem C01_zero_duration_repeats_time (P : Params K) (heps : 0 ≤ P.eps) (start ys x : K) (hys : 0 < ys)
    (hraw : P.minStep ≤ rawStep P x) (h0 : 0 ≤ rawStep P x) (xs : List K) :
    (evolve P (fresh P start) ⟨some ys, some start, none, false⟩ (x :: xs)).1 = [start, start] := by
  have hgo := prepare_fresh P start ys start le_rfl
  unfold evolve
  rw [hgo]
  simp only [Bool.false_eq_true, if_false]
  generalize hs : freshStart P start ys start = s
  have hi : Inv s 0 := by subst hs; exact ⟨by simp [freshStart], by simp [freshStart], by simpa [freshStart] using hys⟩
  have hp := pass_spec P ys s 0 x hi
  unfold loop
  have hc := clip_cases (ts := rawStep P x) hi.fin
  have ht : s.time = 0 := by subst hs; rfl
  have hy : s.yieldTime = ys := by subst hs; simp [freshStart]
  have hst : s.start = start := by subst hs; simp [freshStart]
  generalize pass P ys s x = r at hp
  cases hp with
  | raised h => simp [smallLogic, not_lt.mpr hraw] at h
  | quiet s' hi g1 g2 g3 g4 g5 => rw [← g3] at hc; exfalso; rcases hc with hc | hc | hc <;> linarith
  | yielded s' g1 g2 g3 g4 g5 g6 g7 => exfalso; linarith
  | finished s' g1 g2 g3 g4 g5 g6 => simp [hst, ht]

/-- Default-like settings used in the examples below (`config.py`: CFL 1, max 1000, min 1e-6, 50 small steps). -/
def exP : Params ℚ :=
  { cfl := 1, maxStep := 1000, minStep := 1/1000000, maxSmall := 50, defaultOrder := 2, eps := 1/1000000000000,
    fixedFlux := none }

/-- Non-vacuity of C01: start 10, yieldstep 1, final time 12.5, irregular flux steps. -/
example : (evolve exP (fresh exP 10) ⟨some 1, some (25/2), none, false⟩ [3/10, 2, 2/5, 7, 1/4, 9, 1]).1 =
    [10, 11, 12, 25/2] ∧
    (evolve exP (fresh exP 10) ⟨some 1, some (25/2), none, false⟩ [3/10, 2, 2/5, 7, 1/4, 9, 1]).2.1 = .done := by
  decide +kernel

/-- Non-vacuity of `CountBefore`. -/
example : CountBefore (10 : ℚ) 1 (25/2) (1/1000000000000) 2 := by
  refine ⟨?_, by norm_num⟩
  intro k hk
  have : k = 0 ∨ k = 1 := by omega
  rcases this with rfl | rfl <;> norm_num

/-! ## C02 -/

/-- **C02.** Every internal step of every `evolve` call (from any domain state, with a positive yieldstep) is at most CFL
times the flux-limited step (the fixed one if set), at most the maximum step, and does not pass the next yield time nor the
final time; it is only shortened to land exactly on one of the two; the next step starts where this one ended; and with
non-negative flux steps model time never decreases. -/
theorem C02_step_limits (P : Params K) (heps : 0 ≤ P.eps) (s0 : St K) (a : Args K) (fluxes : List K)
    (hys : 0 < a.yieldstep.getD P.maxStep) :
    (∀ o ∈ evolveSteps P s0 a fluxes,
      o.flux ∈ fluxes ∧ o.dt ≤ P.cfl * (P.fixedFlux.getD o.flux) ∧ o.dt ≤ P.maxStep ∧
      o.time + o.dt ≤ o.yieldTime ∧ (∃ f, o.final = some f ∧ o.time + o.dt ≤ f ∧
        (o.dt = min (P.cfl * (P.fixedFlux.getD o.flux)) P.maxStep ∨ o.time + o.dt = o.yieldTime ∨ o.time + o.dt = f)) ∧
      (0 ≤ P.cfl * (P.fixedFlux.getD o.flux) → 0 ≤ P.maxStep → 0 ≤ o.dt)) ∧
    (evolveSteps P s0 a fluxes).IsChain (fun o o' => o'.time = o.time + o.dt) := by
  unfold evolveSteps
  cases h : prepare P s0 a with
  | raised e s => simp
  | returned s => simp
  | go s ys skip =>
    obtain ⟨h1, -, -, -, hy, -, -, -, f, hf, hle, -⟩ := prepare_go h
    rw [← h1] at hys
    obtain ⟨k1, k2, k3⟩ := loopSteps_spec P ys hys heps f fluxes s ⟨hf, hle, by rw [hy]; linarith⟩
    refine ⟨?_, k3⟩
    intro o ho
    obtain ⟨a1, a2, a3, a4, a5, a6, a7, a8⟩ := k1 o ho
    refine ⟨a1, le_trans a7 (min_le_left _ _), le_trans a7 (min_le_right _ _), a6, ⟨f, a2, a5, a8⟩, ?_⟩
    intro b1 b2
    rcases a8 with a8 | a8 | a8
    · rw [a8]; exact le_min b1 b2
    · linarith
    · linarith

/-- **C02.** `set_evolve_max_timestep` makes the maximum at most the requested one (so C02 bounds steps by it), and never
raises an earlier, smaller maximum. -/
theorem C02_set_max_timestep (P : Params K) (m : K) :
    (setEvolveMaxTimestep P m).maxStep ≤ m ∧ (setEvolveMaxTimestep P m).maxStep ≤ P.maxStep ∧
    ((setEvolveMaxTimestep P m).maxStep = m ∨ (setEvolveMaxTimestep P m).maxStep = P.maxStep) := by
  simp only [setEvolveMaxTimestep]
  exact ⟨min_le_right _ _, min_le_left _ _, (min_choice _ _).symm⟩

/-- Non-vacuity of C02: a run with several clipped and unclipped steps. -/
example : (evolveSteps exP (fresh exP 10) ⟨some 1, some (25/2), none, false⟩ [3/10, 2, 2/5, 7, 1/4, 9, 1]).map
    (fun o => (o.time, o.dt)) = [(0, 3/10), (3/10, 7/10), (1, 2/5), (7/5, 3/5), (2, 1/4), (9/4, 1/4)] := by
  decide +kernel

/-! ## C03 -/

theorem schedule_append (t0 ys tf eps : K) (hys : 0 < ys) (m n : ℕ)
    (h1 : t0 + (m : K) * ys < tf - eps) (hm : 0 < m)
    (hn : CountBefore (t0 + (m : K) * ys) ys tf eps n) :
    CountBefore t0 ys tf eps (m + n) ∧
    schedule t0 ys (t0 + (m : K) * ys) (m - 1) ++ schedule (t0 + (m : K) * ys) ys tf n = schedule t0 ys tf (m + n) := by
  constructor
  · refine ⟨?_, ?_⟩
    · intro k hk
      by_cases hkm : k < m
      · have : (k : K) + 1 ≤ (m : K) := by exact_mod_cast hkm
        have := mul_le_mul_of_nonneg_right this hys.le
        linarith
      · have h := hn.1 (k - m) (by omega)
        have e : ((k - m : ℕ) : K) = (k : K) - m := by
          rw [Nat.cast_sub (by omega)]
        rw [e] at h
        linarith
    · have := hn.2
      push_cast
      linarith
  · unfold schedule
    rw [List.range_add, List.map_append, List.map_map]
    have e : List.range m = List.range (m - 1) ++ [m - 1] := by
      obtain ⟨k, rfl⟩ : ∃ k, m = k + 1 := ⟨m - 1, by omega⟩
      rw [List.range_succ]; rfl
    conv_rhs => rw [e]
    simp only [List.map_append, List.map_cons, List.map_nil, List.append_assoc,
      List.cons_append, List.nil_append]
    congr 1
    congr 1
    · have : ((m - 1 : ℕ) : K) = (m : K) - 1 := by rw [Nat.cast_sub hm]; simp
      rw [this]; ring
    · congr 1
      apply List.map_congr_left
      intro k _
      simp only [Function.comp_apply, Nat.cast_add]
      ring

/-- **C03.** Stop at `start + m*ys` (m ≥ 1), then call `evolve` again on the same domain towards a later final time, given
either as `finaltime` or as the remaining `duration`, with arbitrary flux histories and whatever `skip_initial_step` says in
the second call: the concatenated yields are those of a single run.  (`eps` is `config.epsilon` = 1e-12.) -/
theorem C03_resume_equals_single_run (P : Params K) (heps : 0 ≤ P.eps) (start ys tf : K) (m : ℕ) (hm : 0 < m)
    (hys : P.eps < ys) (htf : start + (m : K) * ys < tf - P.eps) (fl1 fl2 : List K) (sk : Bool)
    (ft du : Option K)
    (hargs : (ft = some tf ∧ du = none) ∨ (ft = none ∧ du = some (tf - (start + (m : K) * ys))))
    (hd1 : (evolve P (fresh P start) ⟨some ys, some (start + (m : K) * ys), none, false⟩ fl1).2.1 = .done)
    (hd2 : (evolve P (evolve P (fresh P start) ⟨some ys, some (start + (m : K) * ys), none, false⟩ fl1).2.2
              ⟨some ys, ft, du, sk⟩ fl2).2.1 = .done) :
    ∃ n, CountBefore start ys tf P.eps n ∧
      (evolve P (fresh P start) ⟨some ys, some (start + (m : K) * ys), none, false⟩ fl1).1 ++
      (evolve P (evolve P (fresh P start) ⟨some ys, some (start + (m : K) * ys), none, false⟩ fl1).2.2
              ⟨some ys, ft, du, sk⟩ fl2).1 = start :: schedule start ys tf n := by
  have hys0 : 0 < ys := lt_of_le_of_lt heps hys
  have hm1 : (1 : K) ≤ (m : K) := by exact_mod_cast hm
  have hmys : ys ≤ (m : K) * ys := le_mul_of_one_le_left hys0.le hm1
  have hle1 : start ≤ start + (m : K) * ys := by linarith
  obtain ⟨⟨n1, hn1, hy1⟩, hend⟩ := C01_evolve_yields_requested_times P heps start ys _ hys0 hle1 fl1 hd1
  -- state left by the first run
  have hstate : ∃ s1 : St K, (evolve P (fresh P start) ⟨some ys, some (start + (m : K) * ys), none, false⟩ fl1).2.2 = s1 ∧
      s1.start = start ∧ s1.time = (m : K) * ys ∧ s1.called = true := by
    refine ⟨_, rfl, ?_⟩
    obtain ⟨f, hf, k, hk, hr⟩ := evolve_of_go hys0 heps (prepare_fresh P start ys _ hle1) fl1
    simp only [freshStart, Option.some.injEq] at hf
    rcases hr with ⟨a1, a2, a3, a4, a5⟩ | ⟨a1, a2⟩
    · exact ⟨a5.1, by rw [a4, ← hf]; ring, a5.2⟩
    · rw [hd1] at a1; simp at a1
  obtain ⟨s1, hs1, hst, hti, hca⟩ := hstate
  rw [hs1] at hd2 ⊢
  have hpre : ∃ s, prepare P s1 ⟨some ys, ft, du, sk⟩ = .go s ys true ∧ s.start = start ∧ s.time = (m : K) * ys ∧
      s.final = some (tf - start) := by
    have hlt : ¬ (tf - start < (m : K) * ys) := by linarith
    rcases hargs with ⟨rfl, rfl⟩ | ⟨rfl, rfl⟩
    · simp [prepare, hca, hst, hti, hlt]
    · have e : tf - (start + (m : K) * ys) + (m : K) * ys = tf - start := by ring
      simp [prepare, hca, hst, hti, e, hlt]
  obtain ⟨s, hgo, e1, e2, e3⟩ := hpre
  obtain ⟨f, hf, n2, hn2, hr⟩ := evolve_of_go hys0 heps hgo fl2
  rw [e3] at hf
  simp only [Option.some.injEq] at hf
  subst hf
  rcases hr with ⟨a1, a2, a3, a4, a5⟩ | ⟨a1, a2⟩
  · simp only [if_true, List.nil_append, e1, e2, add_sub_cancel] at a2 a3
    have hn1' : n1 = m - 1 := by
      refine CountBefore.unique hn1 ⟨?_, ?_⟩
      · intro k hk
        have : (k : K) + 1 + 1 ≤ (m : K) := by exact_mod_cast (by omega : k + 1 + 1 ≤ m)
        have := mul_le_mul_of_nonneg_right this hys0.le
        linarith
      · have : ((m - 1 : ℕ) : K) = (m : K) - 1 := by rw [Nat.cast_sub hm]; simp
        rw [this]; linarith
    obtain ⟨b1, b2⟩ := schedule_append start ys tf P.eps hys0 m n2 htf hm a2
    refine ⟨m + n2, b1, ?_⟩
    rw [hy1, a3, hn1', List.cons_append, b2]
  · rw [hd2] at a1; simp at a1

/-- Non-vacuity of C03: stop at 12 = 10 + 2*1, resume to 14.5 with a duration. -/
example :
    let r1 := evolve exP (fresh exP 10) ⟨some 1, some 12, none, false⟩ [3/10, 2, 2/5, 7]
    let r2 := evolve exP r1.2.2 ⟨some 1, none, some (5/2), false⟩ [1/4, 9, 1, 1]
    r1.1 ++ r2.1 = [10, 11, 12, 13, 14, 29/2] ∧ r1.2.1 = .done ∧ r2.2.1 = .done := by
  decide +kernel

/-- **C03 (limit of the claim).** A time set with `set_time` before the very first `evolve` call is silently discarded: the
run starts at `start + evolve_starttime`. -/
theorem C03_set_time_before_first_evolve_is_ignored (P : Params K) (start t ys tf : K) (fluxes : List K) :
    evolve P { fresh P start with time := t } ⟨some ys, some tf, none, false⟩ fluxes =
    evolve P (fresh P start) ⟨some ys, some tf, none, false⟩ fluxes := by
  have h : prepare P { fresh P start with time := t } ⟨some ys, some tf, none, false⟩ =
      prepare P (fresh P start) ⟨some ys, some tf, none, false⟩ := by
    by_cases ht : t = 0
    · subst ht; rfl
    · simp [prepare, fresh, ht]
  unfold evolve
  rw [h]

/-! ## C04 -/

/-- **C04.** Let a step be *small* when `min(CFL*flux, max_timestep) < min_timestep` and let `t` be the number of consecutive
small steps just taken.  While the run goes on, the scheme is at its default order `D` as long as `t ≤ max_smallsteps`
(in particular right after any normal step) and at order 1 afterwards, and `t` never reaches `(max_smallsteps+1)*D`; the run
is aborted with the too-small exception only if some initial part of the history ends in exactly that many consecutive
small steps. -/
theorem C04_small_step_fallback (P : Params K) (heps : 0 ≤ P.eps) (hD : P.defaultOrder = 1 ∨ P.defaultOrder = 2)
    (start ys tf : K) (hys : 0 < ys) (htf : start ≤ tf) (fluxes : List K) :
    let small : K → Bool := fun x => decide (min (P.cfl * P.fixedFlux.getD x) P.maxStep < P.minStep)
    let r := evolve P (fresh P start) ⟨some ys, some tf, none, false⟩ fluxes
    let cap := (P.maxSmall + 1) * P.defaultOrder
    (r.2.1 = .running →
      (trailing (fluxes.map small) ≤ P.maxSmall → r.2.2.order = P.defaultOrder) ∧
      (P.maxSmall < trailing (fluxes.map small) → r.2.2.order = 1) ∧
      ∀ p, p <+: fluxes → trailing (p.map small) < cap) ∧
    (∀ e, r.2.1 = .raised e → ∃ p, p <+: fluxes ∧ trailing (p.map small) = cap) := by
  intro small r cap
  have hgo := prepare_fresh P start ys tf htf
  have hi : Inv (freshStart P start ys tf) (tf - start) :=
    ⟨rfl, by simpa [freshStart] using htf, by simpa [freshStart] using hys⟩
  have henc : Enc P (freshStart P start ys tf) (trailing []) := by
    refine ⟨?_, by simp [trailing, freshStart], by simp [trailing, freshStart]⟩
    rcases hD with h | h <;> rw [h] <;> simp [trailing]
  obtain ⟨k1, k2⟩ := loop_small P hD ys hys heps (tf - start) fluxes _ [] hi henc
  have hsm : (fun x => decide (rawStep P x < P.minStep)) = small := rfl
  rw [hsm] at k1 k2
  have hr : r.2 = (loop P ys (freshStart P start ys tf) fluxes).2 := by
    simp only [r, evolve, hgo, Bool.false_eq_true, if_false]
  obtain ⟨m, hm, hy⟩ := loop_yields P ys hys heps (tf - start) fluxes _ hi
  refine ⟨?_, ?_⟩
  · intro hrun
    rw [hr] at hrun ⊢
    obtain ⟨e, hp⟩ := k1 hrun
    simp only [List.nil_append] at e hp
    refine ⟨?_, ?_, hp⟩
    · intro ht
      have := e.order
      rw [if_neg (not_lt.mpr ht)] at this
      exact this
    · intro ht
      have := e.order
      rw [if_pos ht] at this
      exact this
  · intro e he
    rw [hr] at he
    have hts : e = .tooSmall := by
      rcases hy with ⟨a1, _⟩ | ⟨a1 | a1, _⟩ <;> rw [he] at a1 <;> simp at a1
      exact a1
    subst hts
    obtain ⟨p, hp, hq⟩ := k2 he
    exact ⟨p, hp, by simpa using hq⟩

/-- Non-vacuity of C04: three small steps with `max_smallsteps = 2` drop the order, a normal step restores it, six small
steps in a row raise. -/
example :
    let P : Params ℚ := { exP with maxSmall := 2 }
    let t : ℚ := 1/10000000
    let a : Args ℚ := ⟨some 1, some 12, none, false⟩
    (evolve P (fresh P 10) a [t, t, t]).2.2.order = 1 ∧
    (evolve P (fresh P 10) a [t, t, t, 1/10]).2.2.order = 2 ∧
    (evolve P (fresh P 10) a [t, t, t, 1/10, t, t, t, t, t]).2.1 = .running ∧
    (evolve P (fresh P 10) a [t, t, t, 1/10, t, t, t, t, t, t]).2.1 = .raised .tooSmall := by
  decide +kernel

/-- **C04**, across calls: every call to `evolve` starts again at the default order, whatever happened in earlier calls,
while the number of consecutive small steps carries over. -/
theorem C04_new_call_restores_order (P : Params K) (s0 : St K) (a : Args K) :
    (evolve P s0 a []).2.2.order = P.defaultOrder ∧ (evolve P s0 a []).2.2.small = s0.small := by
  have h : ∀ pr, prepare P s0 a = pr →
      (match pr with | .raised _ s => s | .returned s => s | .go s _ _ => s).order = P.defaultOrder ∧
      (match pr with | .raised _ s => s | .returned s => s | .go s _ _ => s).small = s0.small := by
    intro pr hpr
    subst hpr
    unfold prepare
    obtain ⟨yso, ft, du, sk⟩ := a
    cases ft <;> cases du <;> cases hsf : s0.final <;>
      by_cases c1 : (sk || s0.called) = true <;> by_cases c2 : s0.time ≠ s0.evolveStart <;>
      simp [c1, c2, hsf] <;> (try split_ifs) <;> simp_all
  have h' := h _ rfl
  unfold evolve
  cases hp : prepare P s0 a with
  | raised e s => rw [hp] at h'; exact h'
  | returned s => rw [hp] at h'; exact h'
  | go s ys skip =>
    rw [hp] at h'
    cases skip <;> simpa [loop] using h'

end Verif.Evolve
