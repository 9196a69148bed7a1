import Verif.Evolve.Model
import Verif.Evolve.Spec
import Mathlib.Tactic.Linarith
import Mathlib.Tactic.Ring
import Mathlib.Data.List.Chain
import Mathlib.Algebra.Order.Archimedean.Basic

set_option linter.unusedSectionVars false

namespace Verif.Evolve

variable {K : Type*} [Field K] [LinearOrder K] [IsStrictOrderedRing K]

/-- What the loop maintains between passes. -/
structure Inv (s : St K) (f : K) : Prop where
  fin : s.final = some f
  le_final : s.time ≤ f
  lt_yield : s.time < s.yieldTime

omit [IsStrictOrderedRing K] in
theorem updateTimestep_ok {P : Params K} {s s1 : St K} {x : K} (h : updateTimestep P s x = .ok s1) :
    s1.timestep = clipYield s (clipFinal s (rawStep P x)) ∧ s1.start = s.start ∧ s1.final = s.final ∧
    s1.yieldTime = s.yieldTime ∧ s1.time = s.time ∧ s1.evolveStart = s.evolveStart ∧ s1.called = s.called ∧
    smallLogic P s.small s.order (rawStep P x) = some (s1.small, s1.order) := by
  unfold updateTimestep at h
  simp only at h
  split at h
  · cases h
  · rename_i a b hh
    injection h with h
    subst h
    simp [hh]

omit [IsStrictOrderedRing K] in
theorem updateTimestep_err {P : Params K} {s : St K} {x : K} {e : Err} (h : updateTimestep P s x = .error e) :
    e = .tooSmall ∧ smallLogic P s.small s.order (rawStep P x) = none := by
  unfold updateTimestep at h
  simp only at h
  split at h
  · rename_i hh
    injection h with h
    exact ⟨h.symm, hh⟩
  · cases h

theorem clip_le {s : St K} {f ts : K} (h : s.final = some f) :
    s.time + clipYield s (clipFinal s ts) ≤ f ∧ s.time + clipYield s (clipFinal s ts) ≤ s.yieldTime ∧
    clipYield s (clipFinal s ts) ≤ ts := by
  unfold clipYield clipFinal
  rw [h]
  simp only
  split_ifs with h1 h2 h2
  all_goals refine ⟨?_, ?_, ?_⟩
  all_goals linarith

/-- Lower bound: the step taken is the raw step, or reaches the yield time, or reaches the final time. -/
theorem clip_cases {s : St K} {f ts : K} (h : s.final = some f) :
    clipYield s (clipFinal s ts) = ts ∨ s.time + clipYield s (clipFinal s ts) = s.yieldTime ∨
    s.time + clipYield s (clipFinal s ts) = f := by
  unfold clipYield clipFinal
  rw [h]
  simp only
  split_ifs with h1 h2 h2
  · right; left; ring
  · right; right; ring
  · right; left; ring
  · left; rfl

/-- Complete description of one pass from a state satisfying the invariant. -/
inductive PassSpec (P : Params K) (ys : K) (s : St K) (f x : K) : Pass K → Prop
  | raised : smallLogic P s.small s.order (rawStep P x) = none → PassSpec P ys s f x (.raised .tooSmall)
  | quiet (s' : St K) : Inv s' f → s'.start = s.start → s'.yieldTime = s.yieldTime →
      s'.time = s.time + clipYield s (clipFinal s (rawStep P x)) → s'.time < f - P.eps →
      smallLogic P s.small s.order (rawStep P x) = some (s'.small, s'.order) → s'.called = s.called →
      PassSpec P ys s f x (.quiet s')
  | yielded (s' : St K) : s'.final = some f → s'.start = s.start → s'.yieldTime = s.yieldTime + ys →
      s'.time = s.yieldTime → s.yieldTime < f - P.eps →
      smallLogic P s.small s.order (rawStep P x) = some (s'.small, s'.order) →
      s.yieldTime = s.time + clipYield s (clipFinal s (rawStep P x)) → s'.called = s.called →
      PassSpec P ys s f x (.yielded s' (s.start + s.yieldTime))
  | finished (s' : St K) : s'.final = some f → s'.start = s.start → s'.time = f → s'.called = s.called →
      f - P.eps ≤ s.yieldTime →
      smallLogic P s.small s.order (rawStep P x) = some (s'.small, s'.order) →
      PassSpec P ys s f x (.finished s' (s.start + f))

theorem pass_spec (P : Params K) (ys : K) (s : St K) (f x : K) (hs : Inv s f) :
    PassSpec P ys s f x (pass P ys s x) := by
  unfold pass
  cases hu : updateTimestep P s x with
  | error e =>
    obtain ⟨rfl, h⟩ := updateTimestep_err hu
    exact .raised h
  | ok s1 =>
    obtain ⟨h1, h2, h3, h4, h5, h6, h7, h8⟩ := updateTimestep_ok hu
    obtain ⟨c1, c2, c3⟩ := clip_le (ts := rawStep P x) hs.fin
    rw [← h1] at c1 c2 c3
    simp only [h3, hs.fin]
    split_ifs with g1 g2 g3
    · exact absurd c1 (not_le.mpr g2)
    · rw [h2]
      refine .finished _ rfl rfl rfl h7 ?_ h8
      linarith
    · have : s.time + s1.timestep = s.yieldTime := le_antisymm c2 (by simpa [h4] using g3)
      simp only [this, h2, h4]
      refine .yielded _ rfl rfl rfl rfl ?_ h8 ?_ h7
      · rw [← this]; exact not_le.mp g1
      · rw [← h1, this]
    · refine .quiet _ ⟨rfl, c1, ?_⟩ h2 h4 ?_ (not_le.mp g1) h8 h7
      · simpa [h4] using g3
      · simp [h1]

/-- Times `start + (y + k*ys)`, `k < n`. -/
def ticks (start y ys : K) (n : ℕ) : List K := (List.range n).map (fun k : ℕ => start + (y + (k : K) * ys))

theorem ticks_succ (start y ys : K) (n : ℕ) :
    ticks start y ys (n + 1) = (start + y) :: ticks start (y + ys) ys n := by
  unfold ticks
  rw [List.range_succ_eq_map, List.map_cons, List.map_map]
  congr 1
  · simp
  · apply List.map_congr_left
    intro k _
    simp only [Function.comp_apply, Nat.cast_succ]
    ring

/-- Everything the loop yields, whatever the flux timesteps. -/
theorem loop_yields (P : Params K) (ys : K) (hys : 0 < ys) (heps : 0 ≤ P.eps) (f : K) :
    ∀ (fluxes : List K) (s : St K), Inv s f →
      ∃ n : ℕ, (∀ k : ℕ, k < n → s.yieldTime + (k : K) * ys < f - P.eps) ∧
        (((loop P ys s fluxes).2.1 = .done ∧ f - P.eps ≤ s.yieldTime + (n : K) * ys ∧
            (loop P ys s fluxes).1 = ticks s.start s.yieldTime ys n ++ [s.start + f] ∧
            (loop P ys s fluxes).2.2.time = f ∧ (loop P ys s fluxes).2.2.start = s.start ∧
            (loop P ys s fluxes).2.2.called = s.called) ∨
         (((loop P ys s fluxes).2.1 = .running ∨ (loop P ys s fluxes).2.1 = .raised .tooSmall) ∧
            (loop P ys s fluxes).1 = ticks s.start s.yieldTime ys n)) := by
  intro fluxes
  induction fluxes with
  | nil => intro s hs; exact ⟨0, by simp, Or.inr ⟨Or.inl rfl, rfl⟩⟩
  | cons x xs ih =>
    intro s hs
    have hp := pass_spec P ys s f x hs
    unfold loop
    generalize pass P ys s x = r at hp
    cases hp with
    | raised h => exact ⟨0, by simp, Or.inr ⟨Or.inr rfl, rfl⟩⟩
    | quiet s' hi h1 h2 h3 h4 h5 h6 =>
      obtain ⟨n, hn, h⟩ := ih s' hi
      rw [h2] at hn h
      rw [h1, h6] at h
      exact ⟨n, hn, h⟩
    | yielded s' h1 h2 h3 h4 h5 h6 h7 h8 =>
      obtain ⟨n, hn, h⟩ := ih s' ⟨h1, by linarith, by linarith⟩
      refine ⟨n + 1, ?_, ?_⟩
      · intro k hk
        cases k with
        | zero => simpa using h5
        | succ k =>
          have := hn k (by omega)
          rw [h3] at this
          push_cast
          linarith
      · simp only [ticks_succ]
        rw [h2, h3, h8] at h
        rcases h with ⟨a, b, c, d, e⟩ | ⟨a, b⟩
        · left
          refine ⟨a, ?_, by rw [c]; rfl, d, e⟩
          push_cast; linarith
        · right
          exact ⟨a, by rw [b]⟩
    | finished s' h1 h2 h3 h4 h5 h6 =>
      exact ⟨0, by simp, Or.inl ⟨rfl, by simpa using h5, rfl, h3, h2, h4⟩⟩

/-- A run that is still going has used up only boundedly many passes. -/
theorem loop_running_bound (P : Params K) (ys : K) (hys : 0 < ys) (heps : 0 ≤ P.eps) (f d : K) (hd : 0 < d) :
    ∀ (fluxes : List K) (s : St K), Inv s f → s.yieldTime ≤ s.time + ys → (∀ x ∈ fluxes, d ≤ rawStep P x) →
      (loop P ys s fluxes).2.1 = .running →
      (fluxes.length : K) ≤ (f - s.time) / d + (f - s.yieldTime) / ys + 1 := by
  intro fluxes
  induction fluxes with
  | nil =>
    intro s hs hy _ _
    have h1 : 0 ≤ (f - s.time) / d := div_nonneg (by linarith [hs.le_final]) hd.le
    have h2 : -1 ≤ (f - s.yieldTime) / ys := by
      rw [le_div_iff₀ hys]; linarith [hs.le_final]
    simp only [List.length_nil, Nat.cast_zero]
    linarith
  | cons x xs ih =>
    intro s hs hy hx
    have hp := pass_spec P ys s f x hs
    unfold loop
    have hxs : ∀ z ∈ xs, d ≤ rawStep P z := fun z hz => hx z (List.mem_cons_of_mem _ hz)
    have hd' := hx x List.mem_cons_self
    have hc := clip_cases (ts := rawStep P x) hs.fin
    generalize pass P ys s x = r at hp
    cases hp with
    | raised h => intro h; simp at h
    | quiet s' hi h1 h2 h3 h4 h5 h6 =>
      intro hr
      rw [← h3] at hc
      have hlt := hi.lt_yield
      rw [h2] at hlt
      have hstep : s.time + d ≤ s'.time := by
        rcases hc with hc | hc | hc
        · rw [h3, hc]; linarith
        · linarith
        · linarith
      have := ih s' hi (by rw [h2]; linarith) hxs hr
      rw [h2] at this
      have key : (f - s'.time) / d ≤ (f - s.time) / d - 1 := by
        rw [div_le_iff₀ hd, sub_mul, div_mul_cancel₀ _ hd.ne']; linarith
      simp only [List.length_cons, Nat.cast_succ]
      linarith
    | yielded s' h1 h2 h3 h4 h5 h6 h7 h8 =>
      intro hr
      have := ih s' ⟨h1, by linarith, by linarith⟩ (by linarith) hxs hr
      have k1 : (f - s'.time) / d ≤ (f - s.time) / d := by
        apply (div_le_div_iff_of_pos_right hd).mpr
        have := hs.lt_yield; linarith
      have k2 : (f - s'.yieldTime) / ys = (f - s.yieldTime) / ys - 1 := by
        rw [h3, eq_sub_iff_add_eq, div_add_one hys.ne']; congr 1; ring
      simp only [List.length_cons, Nat.cast_succ]
      linarith
    | finished s' h1 h2 h3 h4 h5 h6 => intro h; simp at h

/-- No exception as long as no raw step is below the minimum. -/
theorem loop_not_raised (P : Params K) (ys : K) (hys : 0 < ys) (heps : 0 ≤ P.eps) (f : K) :
    ∀ (fluxes : List K) (s : St K), Inv s f → (∀ x ∈ fluxes, P.minStep ≤ rawStep P x) →
      ∀ e, (loop P ys s fluxes).2.1 ≠ .raised e := by
  intro fluxes
  induction fluxes with
  | nil => intro s hs _ e; simp [loop]
  | cons x xs ih =>
    intro s hs hx e
    have hp := pass_spec P ys s f x hs
    unfold loop
    have hxs : ∀ z ∈ xs, P.minStep ≤ rawStep P z := fun z hz => hx z (List.mem_cons_of_mem _ hz)
    have hd' := hx x List.mem_cons_self
    generalize pass P ys s x = r at hp
    cases hp with
    | raised h => simp [smallLogic, not_lt.mpr hd'] at h
    | quiet s' hi h1 h2 h3 h4 h5 h6 => exact ih s' hi hxs e
    | yielded s' h1 h2 h3 h4 h5 h6 h7 h8 => exact ih s' ⟨h1, by linarith, by linarith⟩ hxs e
    | finished s' h1 h2 h3 h4 h5 h6 => simp

/-- The steps recorded by `loopSteps`. -/
theorem loopSteps_spec (P : Params K) (ys : K) (hys : 0 < ys) (heps : 0 ≤ P.eps) (f : K) :
    ∀ (fluxes : List K) (s : St K), Inv s f →
      (∀ o ∈ loopSteps P ys s fluxes, o.flux ∈ fluxes ∧ o.final = some f ∧ o.time ≤ f ∧ o.time < o.yieldTime ∧
        o.time + o.dt ≤ f ∧ o.time + o.dt ≤ o.yieldTime ∧ o.dt ≤ rawStep P o.flux ∧
        (o.dt = rawStep P o.flux ∨ o.time + o.dt = o.yieldTime ∨ o.time + o.dt = f)) ∧
      (∀ o, (loopSteps P ys s fluxes).head? = some o → o.time = s.time) ∧
      (loopSteps P ys s fluxes).IsChain (fun a b => b.time = a.time + a.dt) := by
  intro fluxes
  induction fluxes with
  | nil => intro s hs; simp [loopSteps]
  | cons x xs ih =>
    intro s hs
    have hp := pass_spec P ys s f x hs
    unfold loopSteps
    cases hu : updateTimestep P s x with
    | error e => simp
    | ok s1 =>
      obtain ⟨h1, h2, h3, h4, h5, h6, h7, h8⟩ := updateTimestep_ok hu
      have hcl := clip_le (ts := rawStep P x) hs.fin
      have hcc := clip_cases (ts := rawStep P x) hs.fin
      rw [← h1] at hcl hcc
      obtain ⟨c1, c2, c3⟩ := hcl
      have hfl := hs.le_final
      have hyl := hs.lt_yield
      have hff := hs.fin
      have base : ∀ (s' : St K), Inv s' f → s'.time = s.time + s1.timestep →
          (∀ o ∈ (⟨s.time, x, s1.timestep, s.yieldTime, s.final⟩ : StepObs K) :: loopSteps P ys s' xs,
              o.flux ∈ x :: xs ∧ o.final = some f ∧ o.time ≤ f ∧ o.time < o.yieldTime ∧
        o.time + o.dt ≤ f ∧ o.time + o.dt ≤ o.yieldTime ∧ o.dt ≤ rawStep P o.flux ∧
        (o.dt = rawStep P o.flux ∨ o.time + o.dt = o.yieldTime ∨ o.time + o.dt = f)) ∧
          (∀ o, ((⟨s.time, x, s1.timestep, s.yieldTime, s.final⟩ : StepObs K) :: loopSteps P ys s' xs).head? = some o →
            o.time = s.time) ∧
          ((⟨s.time, x, s1.timestep, s.yieldTime, s.final⟩ : StepObs K) :: loopSteps P ys s' xs).IsChain
            (fun a b => b.time = a.time + a.dt) := by
        intro s' hi ht
        obtain ⟨i1, i2, i3⟩ := ih s' hi
        refine ⟨?_, ?_, ?_⟩
        · intro o ho
          rcases List.mem_cons.mp ho with rfl | ho
          · exact ⟨List.mem_cons_self, hff, hfl, hyl, c1, c2, c3, hcc⟩
          · obtain ⟨j1, j⟩ := i1 o ho
            exact ⟨List.mem_cons_of_mem _ j1, j⟩
        · intro o ho
          simp at ho
          rw [← ho]
        · rw [List.isChain_cons]
          refine ⟨?_, i3⟩
          intro y hy
          simp only
          rw [i2 y hy, ht]
      generalize pass P ys s x = r at hp
      cases hp with
      | raised h =>
        refine ⟨?_, by simp +contextual, by simp⟩
        simp
        exact ⟨hff, hfl, hyl, c1, c2, c3, hcc⟩
      | quiet s' hi g1 g2 g3 g4 g5 g6 => exact base s' hi (by rw [g3, h1])
      | yielded s' g1 g2 g3 g4 g5 g6 g7 g8 =>
        exact base s' ⟨g1, by linarith, by linarith⟩ (by rw [g4, g7, ← h1])
      | finished s' g1 g2 g3 g4 g5 g6 =>
        refine ⟨?_, by simp +contextual, by simp⟩
        simp
        exact ⟨hff, hfl, hyl, c1, c2, c3, hcc⟩

theorem trailing_true (h : List Bool) : trailing (h ++ [true]) = trailing h + 1 := by
  simp [trailing]

theorem trailing_false (h : List Bool) : trailing (h ++ [false]) = 0 := by
  simp [trailing]

/-- Counter and order are determined by the number of consecutive small steps just taken. -/
structure Enc (P : Params K) (s : St K) (t : ℕ) : Prop where
  lt : t < (P.maxSmall + 1) * P.defaultOrder
  small : s.small = if P.maxSmall < t then t - (P.maxSmall + 1) else t
  order : s.order = if P.maxSmall < t then 1 else P.defaultOrder

theorem smallLogic_enc (P : Params K) (hD : P.defaultOrder = 1 ∨ P.defaultOrder = 2) (s : St K) (h : List Bool) (ts : K)
    (he : Enc P s (trailing h)) :
    (smallLogic P s.small s.order ts = none →
      trailing (h ++ [decide (ts < P.minStep)]) = (P.maxSmall + 1) * P.defaultOrder) ∧
    (∀ s' : St K, smallLogic P s.small s.order ts = some (s'.small, s'.order) →
      Enc P s' (trailing (h ++ [decide (ts < P.minStep)]))) := by
  obtain ⟨h1, h2, h3⟩ := he
  generalize hM : P.maxSmall = M at *
  by_cases hts : ts < P.minStep
  · simp only [hts, decide_true, trailing_true, smallLogic, if_true, hM]
    generalize trailing h = t at *
    rcases hD with hD | hD <;> rw [hD] at h1 h3 <;>
    · split_ifs at h2 h3 with a <;> rw [h2, h3] <;> split_ifs with b <;> try omega
      all_goals
        refine ⟨by intro; first | omega | (rw [hD]; omega) | simp_all, ?_⟩
        intro s' hs'
        simp at hs'
        try
          obtain ⟨e1, e2⟩ := hs'
          refine ⟨by rw [hM, hD]; omega, ?_, ?_⟩ <;> rw [hM] <;> split_ifs <;> first | omega | (rw [hD]; omega) | simp_all
  · have hf : decide (ts < P.minStep) = false := by simpa using hts
    rw [hf, trailing_false]
    simp only [hts, smallLogic, if_false]
    refine ⟨by simp, ?_⟩
    intro s' hs'
    simp at hs'
    obtain ⟨e1, e2⟩ := hs'
    refine ⟨by rcases hD with hD | hD <;> rw [hM, hD] <;> omega, by simp [← e1], ?_⟩
    simp
    rw [← e2, h3]
    rcases hD with hD | hD <;> rw [hD] <;> split_ifs <;> simp_all

theorem loop_small (P : Params K) (hD : P.defaultOrder = 1 ∨ P.defaultOrder = 2) (ys : K) (hys : 0 < ys)
    (heps : 0 ≤ P.eps) (f : K) :
    ∀ (fluxes : List K) (s : St K) (h : List Bool), Inv s f → Enc P s (trailing h) →
      ((loop P ys s fluxes).2.1 = .running →
        Enc P (loop P ys s fluxes).2.2 (trailing (h ++ fluxes.map (fun x => decide (rawStep P x < P.minStep)))) ∧
        ∀ p, p <+: fluxes → trailing (h ++ p.map (fun x => decide (rawStep P x < P.minStep))) <
          (P.maxSmall + 1) * P.defaultOrder) ∧
      ((loop P ys s fluxes).2.1 = .raised .tooSmall →
        ∃ p, p <+: fluxes ∧ trailing (h ++ p.map (fun x => decide (rawStep P x < P.minStep))) =
          (P.maxSmall + 1) * P.defaultOrder) := by
  intro fluxes
  induction fluxes with
  | nil =>
    intro s h hs he
    refine ⟨fun _ => ⟨by simpa [loop] using he, ?_⟩, by simp [loop]⟩
    intro p hp
    simp only [List.prefix_nil] at hp
    subst hp
    simpa using he.lt
  | cons x xs ih =>
    intro s h hs he
    have hp := pass_spec P ys s f x hs
    obtain ⟨k1, k2⟩ := smallLogic_enc P hD s h (rawStep P x) he
    unfold loop
    have step : ∀ s' : St K, Inv s' f → smallLogic P s.small s.order (rawStep P x) = some (s'.small, s'.order) →
      ((loop P ys s' xs).2.1 = .running →
        Enc P (loop P ys s' xs).2.2 (trailing (h ++ (x :: xs).map (fun x => decide (rawStep P x < P.minStep)))) ∧
        ∀ p, p <+: (x :: xs) → trailing (h ++ p.map (fun x => decide (rawStep P x < P.minStep))) <
          (P.maxSmall + 1) * P.defaultOrder) ∧
      ((loop P ys s' xs).2.1 = .raised .tooSmall →
        ∃ p, p <+: (x :: xs) ∧ trailing (h ++ p.map (fun x => decide (rawStep P x < P.minStep))) =
          (P.maxSmall + 1) * P.defaultOrder) := by
      intro s' hi hsm
      obtain ⟨i1, i2⟩ := ih s' (h ++ [decide (rawStep P x < P.minStep)]) hi (k2 s' hsm)
      refine ⟨?_, ?_⟩
      · intro hr
        obtain ⟨j1, j2⟩ := i1 hr
        refine ⟨by simpa using j1, ?_⟩
        intro p hp
        cases p with
        | nil => simpa using he.lt
        | cons y p =>
          obtain ⟨rfl, hp'⟩ := List.cons_prefix_cons.mp hp
          simpa using j2 p hp'
      · intro hr
        obtain ⟨p, hp, hq⟩ := i2 hr
        exact ⟨x :: p, List.cons_prefix_cons.mpr ⟨rfl, hp⟩, by simpa using hq⟩
    generalize pass P ys s x = r at hp
    cases hp with
    | raised h' =>
      refine ⟨by simp, ?_⟩
      intro _
      exact ⟨[x], by simp, by simpa using k1 h'⟩
    | quiet s' hi g1 g2 g3 g4 g5 g6 => exact step s' hi g5
    | yielded s' g1 g2 g3 g4 g5 g6 g7 g8 => exact step s' ⟨g1, by linarith, by linarith⟩ g6
    | finished s' g1 g2 g3 g4 g5 g6 => simp

/-- What `prepare` hands to the loop. -/
theorem prepare_go {P : Params K} {s0 s : St K} {a : Args K} {ys : K} {skip : Bool}
    (h : prepare P s0 a = .go s ys skip) :
    ys = a.yieldstep.getD P.maxStep ∧ skip = (a.skipInitial || s0.called) ∧
    s.start = s0.start ∧ s.time = (if a.skipInitial || s0.called then s0.time else s0.evolveStart) ∧
    s.yieldTime = s.time + ys ∧ s.called = true ∧ s.order = P.defaultOrder ∧ s.small = s0.small ∧
    ∃ f, s.final = some f ∧ s.time ≤ f ∧
      ((∃ ft, a.finaltime = some ft ∧ a.duration = none ∧ f = ft - s0.start) ∨
       (∃ d, a.finaltime = none ∧ a.duration = some d ∧ f = d + s.time) ∨
       (a.finaltime = none ∧ a.duration = none ∧ s0.final = some f)) := by
  unfold prepare at h
  rcases a with ⟨ay, af, ad, ask⟩
  simp only at h ⊢
  generalize hsk : (ask || s0.called) = sk at *
  cases sk <;> cases af <;> cases ad <;> simp only [Bool.false_eq_true, if_true, if_false, reduceCtorEq] at h ⊢
  all_goals
    (try split at h) <;> (try split at h) <;> (try split at h)
  all_goals try (cases h; done)
  all_goals
    injection h with h1 h2 h3
    subst h1 h2 h3
    simp_all

end Verif.Evolve
