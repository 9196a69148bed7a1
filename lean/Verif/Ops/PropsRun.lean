import Verif.Ops.PropsStruct

/-! # C54: the volume booked for operators is the volume they added -/

namespace Verif.Ops

set_option linter.unusedSectionVars false

variable {K : Type*} [Field K] [LinearOrder K] [IsStrictOrderedRing K] {n : ℕ}

/-- A region of distinct triangles that are not ghosts. -/
def Region (d : Dom K n) (tri : Inlet n) : Prop := tri ≠ [] ∧ tri.Nodup ∧ ∀ i ∈ tri, d.full i = true

/-- Operators a user may register: regions list no triangle twice; inlets and structures lie in this process' part of the mesh and
are not empty; a structure discharges from its inflow to its outflow. -/
def Sound (d : Dom K n) : Op K n → Prop
  | .rate o => o.cells.Nodup
  | .inlet o => Region d o.tri
  | .structure o routine => Region d o.inflow ∧ Region d o.outflow ∧ ∀ s, 0 ≤ (routine s).1

theorem waterIn_one (d : Dom K n) (s s' : State K n) (tri : Inlet n) (c : Finset (Fin n)) (hc : ∀ i ∈ tri, i ∈ c)
    (hsame : ∀ i, i ∉ tri → SameAt s s' i) :
    waterIn d s' c - waterIn d s c = waterIn d s' tri.toFinset - waterIn d s tri.toFinset := by
  have hsub : tri.toFinset ⊆ c := fun i hi => hc i (List.mem_toFinset.1 hi)
  unfold waterIn
  rw [← Finset.sum_sdiff hsub, ← Finset.sum_sdiff hsub (f := fun i => d.area i * s.depth i)]
  have e : ∑ i ∈ c \ tri.toFinset, d.area i * s'.depth i = ∑ i ∈ c \ tri.toFinset, d.area i * s.depth i := by
    refine Finset.sum_congr rfl fun i hi => ?_
    obtain ⟨h1, h2, -⟩ := hsame i fun h => (Finset.mem_sdiff.1 hi).2 (List.mem_toFinset.2 h)
    unfold State.depth
    rw [h1, h2]
  rw [e]
  ring

theorem rate_boundary (d : Dom K n) (op op' : RateOp K n) (s s' : State K n) (t dt : K) (h : op.call d s t dt = .ok (op', s')) :
    s'.boundary = s.boundary := by
  unfold RateOp.call at h
  cases hr : op.rateAt d t with
  | error e => rw [hr] at h; cases h
  | ok r =>
    rw [hr] at h
    simp only at h
    split_ifs at h
    all_goals
      simp only [Except.ok.injEq, Prod.mk.injEq] at h
      obtain ⟨-, rfl⟩ := h
      rfl

theorem inlet_boundary (srt : Argsort K) (d : Dom K n) (op op' : InletOp K n) (s s' : State K n) (t dt : K)
    (h : op.call srt d s t dt = .ok (op', s')) : s'.boundary = s.boundary := by
  have mom : ∀ new : State K n, (op.momenta s new).boundary = new.boundary := by
    intro new
    unfold InletOp.momenta
    simp only
    split_ifs
    · rfl
    · cases op.velocity <;> rfl
  unfold InletOp.call at h
  simp only at h
  split_ifs at h with hcur
  cases h1 : op.updateQ t with
  | error e => rw [h1] at h; cases h
  | ok q1 =>
    cases h2 : op.updateQ (t + dt) with
    | error e => rw [h1, h2] at h; cases h
    | ok q2 =>
      rw [h1, h2] at h
      simp only at h
      split_ifs at h
      · cases hset : Inlet.setStagesEvenly srt d s op.tri (1 / 2 * (q1 + q2) * dt) with
        | error e => rw [hset] at h; cases h
        | ok s1 =>
          rw [hset] at h
          simp only [Except.ok.injEq, Prod.mk.injEq] at h
          obtain ⟨-, rfl⟩ := h
          rw [mom]
          unfold Inlet.setStagesEvenly at hset
          rw [ite_eq_iff] at hset
          obtain ⟨-, hset⟩ | ⟨-, hset⟩ := hset
          · simp only [Except.ok.injEq] at hset
            rw [← hset]
          · cases hset
      · simp only [Except.ok.injEq, Prod.mk.injEq] at h
        obtain ⟨-, rfl⟩ := h
        rw [mom]
        rfl
      · simp only [Except.ok.injEq, Prod.mk.injEq] at h
        obtain ⟨-, rfl⟩ := h
        rfl

/-- One operator. -/
theorem call_books (srt : Argsort K) (hsrt : GoodSort srt) (d : Dom K n) (ha : ∀ i, 0 < d.area i) (op op' : Op K n) (s s' : State K n)
    (t dt : K) (hdt : 0 < dt) (hs : Sound d op) (h : op.call srt d s t dt = .ok (op', s')) :
    s'.booked - s.booked = water d s' - water d s ∧ s'.boundary = s.boundary ∧ Sound d op' := by
  cases op with
  | rate o =>
    simp only [Op.call] at h
    cases hc : o.call d s t dt with
    | error e => rw [hc] at h; cases h
    | ok r =>
      obtain ⟨o', s1⟩ := r
      rw [hc] at h
      simp only [Except.map, Except.ok.injEq, Prod.mk.injEq] at h
      obtain ⟨rfl, rfl⟩ := h
      refine ⟨(C28_books d o o' s s1 t dt hc hs).1, rate_boundary d o o' s s1 t dt hc, ?_⟩
      obtain ⟨g, l, c, -, -, -, -, -, -, -, -, -, -, h8⟩ := call_spec d o o' s s1 t dt hc
      have e : o'.cells = o.cells := by unfold RateOp.cells; rw [h8]
      show o'.cells.Nodup
      rw [e]
      exact hs
  | inlet o =>
    simp only [Op.call] at h
    cases hc : o.call srt d s t dt with
    | error e => rw [hc] at h; cases h
    | ok r =>
      obtain ⟨o', s1⟩ := r
      rw [hc] at h
      simp only [Except.map, Except.ok.injEq, Prod.mk.injEq] at h
      obtain ⟨rfl, rfl⟩ := h
      obtain ⟨hne, hnd, hfull⟩ := hs
      have hnf := (C30_fails srt d o s t dt hnd).not.1 (by rw [hc]; simp)
      rw [not_or, not_or] at hnf
      obtain ⟨-, hq1, hq2⟩ := hnf
      obtain ⟨q1, hq1⟩ := Option.ne_none_iff_exists'.1 hq1
      obtain ⟨q2, hq2⟩ := Option.ne_none_iff_exists'.1 hq2
      obtain ⟨k1, -, -, k4, -, -, k7, k8⟩ := C30_books srt hsrt d o o' s s1 t dt hne hnd ha hdt.ne' hc q1 q2 hq1 hq2
      refine ⟨?_, inlet_boundary srt d o o' s s1 t dt hc, ?_⟩
      · rw [water_eq, water_eq, waterIn_one d s s1 o.tri _ (fun i hi => by simp [hfull i hi]) k7, k1, k4]
        ring
      · show Region d o'.tri
        rw [k8]
        exact ⟨hne, hnd, hfull⟩
  | «structure» o routine =>
    simp only [Op.call] at h
    cases hc : o.call d s (routine s).1 (routine s).2 dt with
    | error e => rw [hc] at h; cases h
    | ok r =>
      obtain ⟨o', s1⟩ := r
      rw [hc] at h
      simp only [Except.map, Except.ok.injEq, Prod.mk.injEq] at h
      obtain ⟨rfl, rfl⟩ := h
      obtain ⟨⟨i1, i2, i3⟩, ⟨o1, o2, o3⟩, hr⟩ := hs
      have hcons := C31_conserves d o o' s s1 _ _ dt i1 o1 i2 o2 ha (hr s) hdt hc (Finset.univ.filter fun i => d.full i) (by
        rintro i (hi | hi)
        · simp [i3 i hi]
        · simp [o3 i hi])
      have hrest : (s1.booked = s.booked ∧ s1.boundary = s.boundary) ∧ o'.inflow = o.inflow ∧ o'.outflow = o.outflow := by
        unfold StructOp.call at hc
        simp only at hc
        rw [ite_eq_iff] at hc
        obtain ⟨-, hc⟩ | ⟨-, hc⟩ := hc
        · simp only [Except.ok.injEq, Prod.mk.injEq] at hc
          obtain ⟨rfl, rfl⟩ := hc
          exact ⟨⟨rfl, rfl⟩, rfl, rfl⟩
        · cases hc
      refine ⟨by rw [water_eq, water_eq, hcons, hrest.1.1, sub_self, sub_self], hrest.1.2, ?_⟩
      show Region d o'.inflow ∧ Region d o'.outflow ∧ _
      rw [hrest.2.1, hrest.2.2]
      exact ⟨⟨i1, i2, i3⟩, ⟨o1, o2, o3⟩, hr⟩

/-- **C54.** Applying all operators of a domain, in any number and order and with overlapping regions: the change of
`fractional_step_volume_integral` is the change of the water in the domain. -/
theorem C54_step (srt : Argsort K) (hsrt : GoodSort srt) (d : Dom K n) (ha : ∀ i, 0 < d.area i) (t dt : K) (hdt : 0 < dt)
    (ops ops' : List (Op K n)) (s s' : State K n) (hs : ∀ op ∈ ops, Sound d op) (h : applyAll srt d t dt ops s = .ok (ops', s')) :
    s'.booked - s.booked = water d s' - water d s ∧ s'.boundary = s.boundary ∧ ∀ op ∈ ops', Sound d op := by
  induction ops generalizing s ops' with
  | nil =>
    simp only [applyAll, Except.ok.injEq, Prod.mk.injEq] at h
    obtain ⟨rfl, rfl⟩ := h
    exact ⟨by ring, rfl, hs⟩
  | cons op rest ih =>
    simp only [applyAll] at h
    cases hc : op.call srt d s t dt with
    | error e => rw [hc] at h; cases h
    | ok r =>
      obtain ⟨op1, s1⟩ := r
      rw [hc] at h
      simp only at h
      cases hr : applyAll srt d t dt rest s1 with
      | error e => rw [hr] at h; cases h
      | ok r2 =>
        obtain ⟨rest', s2⟩ := r2
        rw [hr] at h
        simp only [Except.ok.injEq, Prod.mk.injEq] at h
        obtain ⟨rfl, rfl⟩ := h
        obtain ⟨h1, hb1, h2⟩ := call_books srt hsrt d ha op op1 s s1 t dt hdt (hs op (by simp)) hc
        obtain ⟨h3, hb2, h4⟩ := ih rest' s1 (fun o ho => hs o (by simp [ho])) hr
        refine ⟨by linarith, hb2.trans hb1, fun o ho => ?_⟩
        rcases List.mem_cons.1 ho with rfl | ho
        · exact h2
        · exact h4 o ho

theorem volume_water (d : Dom K n) (s : State K n) : getWaterVolume d s = water d s := by
  unfold getWaterVolume
  rw [water_eq, waterIn]
  have hnd : ((List.finRange n).filter fun i => d.full i).Nodup := (List.nodup_finRange n).filter _
  rw [show (Finset.univ.filter fun i => d.full i = true) = ((List.finRange n).filter fun i => d.full i).toFinset by
    ext i; simp, List.sum_toFinset _ hnd]
  congr 2
  funext i
  unfold State.depth
  ring

/-- **C54.** Over a whole run, whatever the operators: if each advance of the flow changes the water by what it adds to the boundary
flux integral (C12 for the flux step) and books nothing else, the imbalance reported by `report_water_volume_statistics` is what it
was at the start. (The advances are arbitrary functions of the state, so the two hypotheses matter only at the states of the run.) -/
theorem C54_run (srt : Argsort K) (hsrt : GoodSort srt) (d : Dom K n) (ha : ∀ i, 0 < d.area i)
    (steps : List (K × K × (State K n → State K n))) (hdt : ∀ st ∈ steps, 0 < st.2.1)
    (hbook : ∀ st ∈ steps, ∀ s, (st.2.2 s).booked = s.booked)
    (hflux : ∀ st ∈ steps, ∀ s, water d (st.2.2 s) - water d s = (st.2.2 s).boundary - s.boundary)
    (ops ops' : List (Op K n)) (s s' : State K n) (hs : ∀ op ∈ ops, Sound d op) (h : runOps srt d steps ops s = .ok (ops', s'))
    (initial : K) : volumeImbalance d initial s' = volumeImbalance d initial s := by
  induction steps generalizing ops s with
  | nil =>
    simp only [runOps, Except.ok.injEq, Prod.mk.injEq] at h
    obtain ⟨rfl, rfl⟩ := h
    rfl
  | cons st rest ih =>
    obtain ⟨t, dt, adv⟩ := st
    simp only [runOps] at h
    cases hc : applyAll srt d t dt ops (adv s) with
    | error e => rw [hc] at h; cases h
    | ok r =>
      obtain ⟨ops1, s1⟩ := r
      rw [hc] at h
      simp only at h
      obtain ⟨h1, h2, h3⟩ := C54_step srt hsrt d ha t dt (hdt (t, dt, adv) (by simp)) ops ops1 (adv s) s1 hs hc
      rw [ih (fun st h => hdt st (by simp [h])) (fun st h => hbook st (by simp [h])) (fun st h => hflux st (by simp [h])) ops1 s1 h3 h]
      unfold volumeImbalance
      rw [volume_water, volume_water]
      have e1 := hbook (t, dt, adv) (by simp) s
      have e2 := hflux (t, dt, adv) (by simp) s
      simp only at e1 e2
      linarith

/-- **C54.** In particular a run that starts with nothing booked keeps `V - BF - FS` at the initial volume. -/
theorem C54_report (srt : Argsort K) (hsrt : GoodSort srt) (d : Dom K n) (ha : ∀ i, 0 < d.area i)
    (steps : List (K × K × (State K n → State K n))) (hdt : ∀ st ∈ steps, 0 < st.2.1)
    (hbook : ∀ st ∈ steps, ∀ s, (st.2.2 s).booked = s.booked)
    (hflux : ∀ st ∈ steps, ∀ s, water d (st.2.2 s) - water d s = (st.2.2 s).boundary - s.boundary)
    (ops ops' : List (Op K n)) (s s' : State K n) (hs : ∀ op ∈ ops, Sound d op) (h : runOps srt d steps ops s = .ok (ops', s'))
    (h0 : s.booked = 0) (h1 : s.boundary = 0) : volumeImbalance d (water d s) s' = 0 := by
  rw [C54_run srt hsrt d ha steps hdt hbook hflux ops ops' s s' hs h]
  unfold volumeImbalance
  rw [volume_water, h0, h1]
  ring

/-- The three kinds together on a small mesh. -/
def threeOps : List (Op ℚ 3) :=
  [.rate ⟨.scalar (1 / 4), fun _ => 1, none, some [0, 2], 0, 0⟩, .inlet inletOp3, .structure culvert fun s => (s.stage 0 * s.stage 0, 0)]

/-- All of the small mesh belongs to this process. -/
def own3 : Dom ℚ 3 := { dom3 with full := fun _ => true }

example : ∀ op ∈ threeOps, Sound own3 op := by
  intro op hop
  simp only [threeOps, List.mem_cons, List.not_mem_nil, or_false] at hop
  rcases hop with rfl | rfl | rfl
  · show List.Nodup [0, 2]; decide
  · exact ⟨by decide, by decide, by decide⟩
  · exact ⟨⟨by decide, by decide, by decide⟩, ⟨by decide, by decide, by decide⟩, fun s => mul_self_nonneg _⟩

end Verif.Ops
