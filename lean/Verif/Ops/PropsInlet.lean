import Verif.Ops.PropsRate
import Mathlib.Data.Fin.Tuple.Sort

/-! # C29: level filling of an inlet; C30: the inlet operator -/

namespace Verif.Ops

set_option linter.unusedSectionVars false

variable {K : Type*} [Field K] [LinearOrder K] [IsStrictOrderedRing K] {n : ℕ}

/-- The order sorts the stages. -/
def Sorts {k : ℕ} (stages : Fin k → K) (order : Equiv.Perm (Fin k)) : Prop :=
  ∀ i j : Fin k, i ≤ j → stages (order i) ≤ stages (order j)

/-! ## Level filling -/

section Level

variable {k : ℕ} (areas stages : Fin k → K) (order : Equiv.Perm (Fin k))

theorem sortedArea_of_lt {j : ℕ} (h : j < k) (a : Fin k → K) : sortedArea a order j = a (order ⟨j, h⟩) := by
  unfold sortedArea
  rw [dif_pos h]

/-- Volume needed to bring the first cells to the stage of cell `j`. -/
theorem summedVolume_eq (j : ℕ) :
    summedVolume areas stages order j =
      ∑ i ∈ Finset.range (j + 1), sortedArea areas order i * (sortedArea stages order j - sortedArea stages order i) := by
  unfold summedVolume
  induction j with
  | zero => simp
  | succ j ih =>
    rw [Finset.sum_range_succ, ih, Finset.sum_range_succ _ (j + 1)]
    unfold summedAreas
    rw [Finset.sum_mul, sub_self, mul_zero, add_zero, ← Finset.sum_add_distrib]
    exact Finset.sum_congr rfl fun i _ => by ring

theorem summedAreas_pos (hk : 0 < k) (ha : ∀ i, 0 < areas i) (j : ℕ) : 0 < summedAreas areas order j := by
  unfold summedAreas
  have h0 : 0 < sortedArea areas order 0 := by rw [sortedArea_of_lt order hk]; exact ha _
  have hn : ∀ i, 0 ≤ sortedArea areas order i := by
    intro i
    unfold sortedArea
    split_ifs
    · exact (ha _).le
    · exact le_refl _
  exact lt_of_lt_of_le h0 (Finset.single_le_sum (f := fun i => sortedArea areas order i) (fun i _ => hn i) (by simp))

/-- **C29.** Level filling: for positive areas, any stages and any volume that is not negative there is a level such that every
triangle below it is raised to it and every triangle above it is left alone, and the water added is exactly the volume. -/
theorem C29_level_fill (hk : 0 < k) (ha : ∀ i, 0 < areas i) (hs : Sorts stages order) (volume : K) (hv : 0 ≤ volume) :
    ∃ level, (∀ i, levelStages areas stages order volume i = max (stages i) level) ∧
      ∑ i, areas i * (levelStages areas stages order volume i - stages i) = volume := by
  have hP0 : summedVolume areas stages order 0 ≤ volume := by unfold summedVolume; simpa using hv
  have hidx : summedVolume areas stages order (lastFilled areas stages order volume) ≤ volume :=
    Nat.findGreatest_spec (P := fun j => summedVolume areas stages order j ≤ volume) (Nat.zero_le _) hP0
  have hlt : lastFilled areas stages order volume < k := by
    have : lastFilled areas stages order volume ≤ k - 1 := Nat.findGreatest_le _
    omega
  have hnext : ∀ j, lastFilled areas stages order volume < j → j < k → volume < summedVolume areas stages order j := by
    intro j hj hjk
    exact not_le.1 (Nat.findGreatest_is_greatest (P := fun j => summedVolume areas stages order j ≤ volume) hj (by omega))
  have hA := summedAreas_pos areas order hk ha (lastFilled areas stages order volume)
  generalize hx : lastFilled areas stages order volume = x at *
  have hdep : 0 ≤ (volume - summedVolume areas stages order x) / summedAreas areas order x := div_nonneg (by linarith) hA.le
  -- the level lies below all later stages
  have hbelow : ∀ j : Fin k, x < j.val →
      sortedArea stages order x + (volume - summedVolume areas stages order x) / summedAreas areas order x ≤ stages (order j) := by
    intro j hj
    have hx1 : x + 1 < k := by omega
    have h1 := hnext (x + 1) (Nat.lt_succ_self x) hx1
    have h2 : summedVolume areas stages order (x + 1) = summedVolume areas stages order x +
        summedAreas areas order x * (sortedArea stages order (x + 1) - sortedArea stages order x) := by
      unfold summedVolume
      rw [Finset.sum_range_succ]
    have h3 : (volume - summedVolume areas stages order x) / summedAreas areas order x <
        sortedArea stages order (x + 1) - sortedArea stages order x := by
      rw [div_lt_iff₀ hA]
      linarith [mul_comm (summedAreas areas order x) (sortedArea stages order (x + 1) - sortedArea stages order x)]
    have h4 : sortedArea stages order (x + 1) ≤ stages (order j) := by
      rw [sortedArea_of_lt order hx1]
      exact hs _ _ (by rw [Fin.le_def]; exact hj)
    linarith
  have habove : ∀ j : Fin k, j.val ≤ x → stages (order j) ≤ sortedArea stages order x := by
    intro j hj
    rw [sortedArea_of_lt order hlt]
    exact hs _ _ (by rw [Fin.le_def]; simpa using hj)
  have hval : ∀ i, levelStages areas stages order volume i =
      if (order.symm i).val ≤ x then sortedArea stages order x + (volume - summedVolume areas stages order x) / summedAreas areas order x
      else stages i := by
    intro i
    unfold levelStages
    rw [hx]
  refine ⟨sortedArea stages order x + (volume - summedVolume areas stages order x) / summedAreas areas order x, fun i => ?_, ?_⟩
  · rw [hval]
    have e : stages i = stages (order (order.symm i)) := by rw [Equiv.apply_symm_apply]
    split_ifs with h
    · rw [max_eq_right]
      have := habove _ h
      rw [e]
      linarith
    · rw [max_eq_left]
      rw [e]
      exact hbelow _ (not_le.1 h)
  · -- sum in sorted order
    set L := sortedArea stages order x + (volume - summedVolume areas stages order x) / summedAreas areas order x with hL
    have e1 : ∑ i, areas i * (levelStages areas stages order volume i - stages i) =
        ∑ j : Fin k, if j.val ≤ x then areas (order j) * (L - stages (order j)) else 0 := by
      rw [← Equiv.sum_comp order]
      refine Finset.sum_congr rfl fun j _ => ?_
      rw [hval, Equiv.symm_apply_apply]
      split_ifs <;> ring
    have e2 : ∑ j : Fin k, (if j.val ≤ x then areas (order j) * (L - stages (order j)) else 0) =
        ∑ j ∈ Finset.range k, if j ≤ x then sortedArea areas order j * (L - sortedArea stages order j) else 0 := by
      rw [← Fin.sum_univ_eq_sum_range (fun j => if j ≤ x then sortedArea areas order j * (L - sortedArea stages order j) else 0)]
      refine Finset.sum_congr rfl fun j _ => ?_
      rw [sortedArea_of_lt order j.isLt, sortedArea_of_lt order j.isLt]
    have e3 : ∑ j ∈ Finset.range k, (if j ≤ x then sortedArea areas order j * (L - sortedArea stages order j) else 0) =
        ∑ j ∈ Finset.range (x + 1), sortedArea areas order j * (L - sortedArea stages order j) := by
      rw [← Finset.sum_filter]
      congr 1
      ext j
      simp only [Finset.mem_filter, Finset.mem_range]
      omega
    rw [e1, e2, e3]
    have e4 : ∑ j ∈ Finset.range (x + 1), sortedArea areas order j * (L - sortedArea stages order j) =
        summedVolume areas stages order x + summedAreas areas order x * ((volume - summedVolume areas stages order x) / summedAreas areas order x) := by
      rw [summedVolume_eq]
      conv_rhs => rw [summedAreas, Finset.sum_mul, ← Finset.sum_add_distrib]
      refine Finset.sum_congr rfl fun j _ => ?_
      rw [hL, summedVolume_eq, summedAreas]
      ring
    rw [e4, mul_div_cancel₀ _ hA.ne']
    ring

/-- **C29.** The result does not depend on how equal stages were ordered, nor on the order in which the triangles of the region are
listed: it is the only level filling with that volume. -/
theorem C29_unique (hk : 0 < k) (ha : ∀ i, 0 < areas i) (hs : Sorts stages order) (volume : K) (hv : 0 ≤ volume)
    (new : Fin k → K) (level : K) (hl : ∀ i, new i = max (stages i) level) (hvol : ∑ i, areas i * (new i - stages i) = volume) :
    new = levelStages areas stages order volume := by
  obtain ⟨level', hl', hvol'⟩ := C29_level_fill areas stages order hk ha hs volume hv
  -- of two level fillings one is nowhere lower
  have aux : ∀ (f g : Fin k → K) (a b : K), (∀ i, f i = max (stages i) a) → (∀ i, g i = max (stages i) b) → a ≤ b →
      ∑ i, areas i * (f i - stages i) = ∑ i, areas i * (g i - stages i) → f = g := by
    intro f g a b hf hg hab hsum
    have hle : ∀ i, f i ≤ g i := fun i => by rw [hf, hg]; exact max_le_max (le_refl _) hab
    funext i
    by_contra hne
    have hlt : f i < g i := lt_of_le_of_ne (hle i) hne
    have : ∑ i, areas i * (f i - stages i) < ∑ i, areas i * (g i - stages i) := by
      apply Finset.sum_lt_sum
      · intro j _
        exact mul_le_mul_of_nonneg_left (by linarith [hle j]) (ha j).le
      · exact ⟨i, Finset.mem_univ _, mul_lt_mul_of_pos_left (by linarith) (ha i)⟩
    linarith
  rcases le_total level level' with h | h
  · exact aux _ _ _ _ hl hl' h (hvol.trans hvol'.symm)
  · exact (aux _ _ _ _ hl' hl h (hvol'.trans hvol.symm)).symm

end Level

/-- numpy's `argsort` sorts. -/
def GoodSort (srt : Argsort K) : Prop := ∀ k (stages : Fin k → K), Sorts stages (srt k stages)

/-- Writing computed values to distinct places. -/
theorem put_ofFn (idx : List (Fin n)) (hnd : idx.Nodup) (a : Fin n → K) (f : Fin idx.length → K) (j : Fin idx.length) :
    put a idx (List.ofFn f) idx[j] = f j := by
  induction idx generalizing a with
  | nil => exact j.elim0
  | cons i is ih =>
    rw [List.ofFn_succ]
    simp only [put]
    rw [List.nodup_cons] at hnd
    refine Fin.cases ?_ (fun j => ?_) j
    · simp only [Fin.getElem_fin, Fin.val_zero, List.getElem_cons_zero]
      rw [put_notMem _ _ _ _ hnd.1, Function.update_self]
    · simpa using ih hnd.2 (Function.update a i (f 0)) (fun j => f j.succ) j

theorem sum_fin_list (idx : List (Fin n)) (g : Fin n → K) : ∑ j : Fin idx.length, g idx[j] = (idx.map g).sum := by
  rw [← List.sum_ofFn]
  congr 1
  apply List.ext_getElem <;> simp

/-- **C29.** The same in the domain: `set_stages_evenly` raises the triangles of the inlet to a common level, never lowers one, adds
exactly the volume, and touches nothing else. -/
theorem C29_inlet (srt : Argsort K) (hsrt : GoodSort srt) (d : Dom K n) (s s' : State K n) (tri : Inlet n) (hne : tri ≠ [])
    (hnd : tri.Nodup) (ha : ∀ i, 0 < d.area i) (volume : K) (h : Inlet.setStagesEvenly srt d s tri volume = .ok s') :
    0 ≤ volume ∧ (∃ level, ∀ i ∈ tri, s'.stage i = max (s.stage i) level) ∧ (∀ i, i ∉ tri → s'.stage i = s.stage i) ∧
      waterIn d s' tri.toFinset = waterIn d s tri.toFinset + volume ∧
      s'.elev = s.elev ∧ s'.xmom = s.xmom ∧ s'.ymom = s.ymom ∧ s'.booked = s.booked := by
  unfold Inlet.setStagesEvenly at h
  split_ifs at h with hv
  simp only [Except.ok.injEq] at h
  subst h
  have hk : 0 < tri.length := List.length_pos_of_ne_nil hne
  obtain ⟨level, hl, hvol⟩ := C29_level_fill (fun j : Fin tri.length => d.area tri[j]) (fun j : Fin tri.length => s.stage tri[j])
    (srt tri.length fun j => s.stage tri[j]) hk (fun _ => ha _) (hsrt _ _) volume hv
  have hput : ∀ j : Fin tri.length, put s.stage tri (List.ofFn (levelStages (fun j : Fin tri.length => d.area tri[j])
      (fun j : Fin tri.length => s.stage tri[j]) (srt tri.length fun j => s.stage tri[j]) volume)) tri[j] = max (s.stage tri[j]) level := by
    intro j
    rw [put_ofFn tri hnd, hl]
  refine ⟨hv, ⟨level, fun i hi => ?_⟩, fun i hi => put_notMem _ _ _ _ hi, ?_, rfl, rfl, rfl, rfl⟩
  · obtain ⟨j, hj, rfl⟩ := List.getElem_of_mem hi
    exact hput ⟨j, hj⟩
  · unfold waterIn
    rw [List.sum_toFinset _ hnd, List.sum_toFinset _ hnd, ← sum_fin_list, ← sum_fin_list]
    conv_rhs => rw [← hvol]
    rw [← Finset.sum_add_distrib]
    refine Finset.sum_congr rfl fun j _ => ?_
    unfold State.depth
    simp only
    rw [put_ofFn tri hnd]
    ring

/-! ## The inlet operator -/

/-- Discharge a user asked for at time `t`. -/
def wantedQ (op : InletOp K n) (t : K) : Option K :=
  match op.q t with
  | .val v => some v
  | _ => op.default.map fun g => g t

theorem updateQ_ok (op : InletOp K n) (t q : K) : op.updateQ t = .ok q ↔ wantedQ op t = some q := by
  unfold InletOp.updateQ wantedQ
  cases op.q t <;> cases op.default <;> simp

theorem momenta_same (op : InletOp K n) (old new : State K n) :
    (op.momenta old new).stage = new.stage ∧ (op.momenta old new).elev = new.elev ∧ (op.momenta old new).booked = new.booked ∧
      ∀ i, i ∉ op.tri → (op.momenta old new).xmom i = new.xmom i ∧ (op.momenta old new).ymom i = new.ymom i := by
  unfold InletOp.momenta Inlet.setMoms putAll
  simp only
  split_ifs
  · exact ⟨rfl, rfl, rfl, fun i hi => ⟨put_notMem _ _ _ _ hi, put_notMem _ _ _ _ hi⟩⟩
  · cases op.velocity with
    | none => exact ⟨rfl, rfl, rfl, fun i hi => ⟨put_notMem _ _ _ _ hi, put_notMem _ _ _ _ hi⟩⟩
    | some w => exact ⟨rfl, rfl, rfl, fun i hi => ⟨put_notMem _ _ _ _ hi, put_notMem _ _ _ _ hi⟩⟩

theorem area_pos (d : Dom K n) (tri : Inlet n) (hne : tri ≠ []) (ha : ∀ i, 0 < d.area i) : 0 < Inlet.area d tri := by
  unfold Inlet.area
  cases tri with
  | nil => exact absurd rfl hne
  | cons i is =>
    rw [List.map_cons, List.sum_cons]
    exact add_pos_of_pos_of_nonneg (ha i) (List.sum_nonneg (by simp only [List.mem_map]; rintro _ ⟨j, -, rfl⟩; exact (ha j).le))

theorem volume_eq (d : Dom K n) (s : State K n) (tri : Inlet n) (hnd : tri.Nodup) :
    Inlet.volume d s tri = waterIn d s tri.toFinset := by
  unfold Inlet.volume waterIn State.depth
  rw [List.sum_toFinset _ hnd]
  congr 2
  funext i
  ring

theorem setDepths_spec (d : Dom K n) (s : State K n) (tri : Inlet n) (hnd : tri.Nodup) (depth : K) :
    (∀ i ∈ tri, (Inlet.setDepths s tri depth).depth i = depth) ∧
      (∀ i, i ∉ tri → (Inlet.setDepths s tri depth).stage i = s.stage i) ∧
      waterIn d (Inlet.setDepths s tri depth) tri.toFinset = depth * Inlet.area d tri := by
  have h1 : ∀ i ∈ tri, (Inlet.setDepths s tri depth).depth i = depth := by
    intro i hi
    unfold Inlet.setDepths State.depth
    simp only
    rw [put_map, if_pos hi]
    ring
  refine ⟨h1, fun i hi => put_notMem _ _ _ _ hi, ?_⟩
  unfold waterIn Inlet.area
  rw [List.sum_toFinset _ hnd]
  have aux : ∀ l : List (Fin n), (∀ i ∈ l, i ∈ tri) →
      (l.map fun i => d.area i * (Inlet.setDepths s tri depth).depth i).sum = depth * (l.map d.area).sum := by
    intro l hl
    induction l with
    | nil => simp
    | cons i is ih =>
      rw [List.map_cons, List.sum_cons, ih fun j hj => hl j (by simp [hj]), h1 i (hl i (by simp)), List.map_cons, List.sum_cons]
      ring
  exact aux tri fun _ h => h

/-- **C30.** One step of an inlet operator with requested volume `0.5*(Q(t)+Q(t+dt))*dt`: the water in the inlet changes by the
requested volume, or by minus all of the water that is there if more than that was to be taken. The change is what is booked as
applied, what is booked in the domain, and the reported discharge times the timestep; the request is booked separately. Nothing
outside the inlet changes. -/
theorem C30_books (srt : Argsort K) (hsrt : GoodSort srt) (d : Dom K n) (op op' : InletOp K n) (s s' : State K n) (t dt : K)
    (hne : op.tri ≠ []) (hnd : op.tri.Nodup) (ha : ∀ i, 0 < d.area i) (hdt : dt ≠ 0) (h : op.call srt d s t dt = .ok (op', s'))
    (q1 q2 : K) (h1 : wantedQ op t = some q1) (h2 : wantedQ op (t + dt) = some q2) :
    let request := 1 / 2 * (q1 + q2) * dt
    let applied := max request (-waterIn d s op.tri.toFinset)
    waterIn d s' op.tri.toFinset = waterIn d s op.tri.toFinset + applied ∧
      op'.totalApplied = op.totalApplied + applied ∧ op'.totalRequested = op.totalRequested + request ∧
      s'.booked = s.booked + applied ∧ op'.appliedQ * dt = applied ∧ s'.elev = s.elev ∧
      (∀ i, i ∉ op.tri → SameAt s s' i) ∧ op'.tri = op.tri := by
  simp only
  unfold InletOp.call at h
  simp only at h
  rw [(updateQ_ok op t q1).2 h1, (updateQ_ok op (t + dt) q2).2 h2] at h
  simp only at h
  have hvol := volume_eq d s op.tri hnd
  rw [hvol] at h
  have hA := area_pos d op.tri hne ha
  by_cases hcur : waterIn d s op.tri.toFinset ≥ 0
  · rw [if_pos hcur] at h
    by_cases hpos : 1 / 2 * (q1 + q2) * dt ≥ 0
    · rw [if_pos hpos] at h
      cases hset : Inlet.setStagesEvenly srt d s op.tri (1 / 2 * (q1 + q2) * dt) with
      | error e => rw [hset] at h; cases h
      | ok s1 =>
        rw [hset] at h
        simp only [Except.ok.injEq, Prod.mk.injEq] at h
        obtain ⟨rfl, rfl⟩ := h
        obtain ⟨-, -, k1, k2, k3, k4, k5, k6⟩ := C29_inlet srt hsrt d s s1 op.tri hne hnd ha _ hset
        obtain ⟨m1, m2, m3, m4⟩ := momenta_same op s { s1 with booked := s1.booked + 1 / 2 * (q1 + q2) * dt }
        have hmax : max (1 / 2 * (q1 + q2) * dt) (-waterIn d s op.tri.toFinset) = 1 / 2 * (q1 + q2) * dt :=
          max_eq_left (by linarith)
        rw [hmax]
        refine ⟨?_, rfl, rfl, ?_, rfl, by rw [m2]; exact k3, fun i hi => ⟨?_, by rw [m2, k3], ?_, ?_⟩, rfl⟩
        · rw [← k2]
          unfold waterIn State.depth
          rw [m1, m2]
        · rw [m3, k6]
        · rw [m1, k1 i hi]
        · rw [(m4 i hi).1, k4]
        · rw [(m4 i hi).2, k5]
    · rw [if_neg hpos] at h
      by_cases hen : waterIn d s op.tri.toFinset + 1 / 2 * (q1 + q2) * dt ≥ 0
      · rw [if_pos hen] at h
        simp only [Except.ok.injEq, Prod.mk.injEq] at h
        obtain ⟨rfl, rfl⟩ := h
        obtain ⟨-, k2, k3⟩ := setDepths_spec d s op.tri hnd ((waterIn d s op.tri.toFinset + 1 / 2 * (q1 + q2) * dt) / Inlet.area d op.tri)
        generalize hs1 : Inlet.setDepths s op.tri ((waterIn d s op.tri.toFinset + 1 / 2 * (q1 + q2) * dt) / Inlet.area d op.tri) = s1 at *
        have ke : s1.elev = s.elev := by rw [← hs1]; rfl
        have kx : s1.xmom = s.xmom := by rw [← hs1]; rfl
        have ky : s1.ymom = s.ymom := by rw [← hs1]; rfl
        have kb : s1.booked = s.booked := by rw [← hs1]; rfl
        obtain ⟨m1, m2, m3, m4⟩ := momenta_same op s { s1 with booked := s1.booked + 1 / 2 * (q1 + q2) * dt }
        have hmax : max (1 / 2 * (q1 + q2) * dt) (-waterIn d s op.tri.toFinset) = 1 / 2 * (q1 + q2) * dt :=
          max_eq_left (by linarith)
        rw [hmax]
        refine ⟨?_, rfl, rfl, ?_, rfl, by rw [m2]; exact ke, fun i hi => ⟨?_, by rw [m2, ke], ?_, ?_⟩, rfl⟩
        · rw [div_mul_cancel₀ _ hA.ne'] at k3
          rw [← k3]
          unfold waterIn State.depth
          rw [m1, m2]
        · rw [m3, kb]
        · rw [m1, k2 i hi]
        · rw [(m4 i hi).1, kx]
        · rw [(m4 i hi).2, ky]
      · rw [if_neg hen] at h
        simp only [Except.ok.injEq, Prod.mk.injEq] at h
        obtain ⟨rfl, rfl⟩ := h
        obtain ⟨k1, k2, k3⟩ := setDepths_spec d s op.tri hnd 0
        have hmax : max (1 / 2 * (q1 + q2) * dt) (-waterIn d s op.tri.toFinset) = -waterIn d s op.tri.toFinset :=
          max_eq_right (by linarith)
        rw [hmax]
        refine ⟨?_, rfl, rfl, ?_, div_mul_cancel₀ _ hdt, rfl, fun i hi => ⟨k2 i hi, rfl, ?_, ?_⟩, rfl⟩
        · rw [zero_mul] at k3
          rw [add_neg_cancel]
          exact k3
        · exact sub_eq_add_neg _ _
        · exact put_notMem _ _ _ _ hi
        · exact put_notMem _ _ _ _ hi
  · rw [if_neg hcur] at h
    cases h

/-- **C30.** The step keeps depths non-negative; inflow never lowers the surface and raises the lower part of the inlet to one level;
taking water leaves one common depth. -/
theorem C30_depths (srt : Argsort K) (hsrt : GoodSort srt) (d : Dom K n) (op op' : InletOp K n) (s s' : State K n) (t dt : K)
    (hne : op.tri ≠ []) (hnd : op.tri.Nodup) (ha : ∀ i, 0 < d.area i) (h : op.call srt d s t dt = .ok (op', s'))
    (q1 q2 : K) (h1 : wantedQ op t = some q1) (h2 : wantedQ op (t + dt) = some q2) :
    (0 ≤ 1 / 2 * (q1 + q2) * dt → ∃ level, ∀ i ∈ op.tri, s'.stage i = max (s.stage i) level) ∧
      (1 / 2 * (q1 + q2) * dt < 0 → ∃ depth, 0 ≤ depth ∧ ∀ i ∈ op.tri, s'.depth i = depth) ∧
      ((∀ i, 0 ≤ s.depth i) → ∀ i, 0 ≤ s'.depth i) := by
  have key : (0 ≤ 1 / 2 * (q1 + q2) * dt → ∃ level, ∀ i ∈ op.tri, s'.stage i = max (s.stage i) level) ∧
      (1 / 2 * (q1 + q2) * dt < 0 → ∃ depth, 0 ≤ depth ∧ ∀ i ∈ op.tri, s'.depth i = depth) ∧ s'.elev = s.elev ∧
      ∀ i, i ∉ op.tri → s'.stage i = s.stage i := by
    unfold InletOp.call at h
    simp only at h
    rw [(updateQ_ok op t q1).2 h1, (updateQ_ok op (t + dt) q2).2 h2] at h
    simp only at h
    rw [volume_eq d s op.tri hnd] at h
    have hA := area_pos d op.tri hne ha
    split_ifs at h with hcur hpos hen
    · cases hset : Inlet.setStagesEvenly srt d s op.tri (1 / 2 * (q1 + q2) * dt) with
      | error e => rw [hset] at h; cases h
      | ok s1 =>
        rw [hset] at h
        simp only [Except.ok.injEq, Prod.mk.injEq] at h
        obtain ⟨rfl, rfl⟩ := h
        obtain ⟨-, k0, k1, k2, k3, -⟩ := C29_inlet srt hsrt d s s1 op.tri hne hnd ha _ hset
        obtain ⟨m1, m2, -, -⟩ := momenta_same op s { s1 with booked := s1.booked + 1 / 2 * (q1 + q2) * dt }
        refine ⟨fun _ => ?_, fun hn => absurd hn (not_lt.2 hpos), by rw [m2]; exact k3, fun i hi => by rw [m1]; exact k1 i hi⟩
        rw [m1]
        exact k0
    · simp only [Except.ok.injEq, Prod.mk.injEq] at h
      obtain ⟨rfl, rfl⟩ := h
      obtain ⟨k1, k2, -⟩ := setDepths_spec d s op.tri hnd ((waterIn d s op.tri.toFinset + 1 / 2 * (q1 + q2) * dt) / Inlet.area d op.tri)
      generalize hs1 : Inlet.setDepths s op.tri ((waterIn d s op.tri.toFinset + 1 / 2 * (q1 + q2) * dt) / Inlet.area d op.tri) = s1 at *
      have ke : s1.elev = s.elev := by rw [← hs1]; rfl
      obtain ⟨m1, m2, -, -⟩ := momenta_same op s { s1 with booked := s1.booked + 1 / 2 * (q1 + q2) * dt }
      refine ⟨fun hp => absurd hp hpos, fun _ => ⟨_, div_nonneg hen hA.le, fun i hi => ?_⟩, by rw [m2]; exact ke,
        fun i hi => by rw [m1]; exact k2 i hi⟩
      rw [← k1 i hi]
      unfold State.depth
      rw [m1, m2]
    · simp only [Except.ok.injEq, Prod.mk.injEq] at h
      obtain ⟨rfl, rfl⟩ := h
      obtain ⟨k1, k2, -⟩ := setDepths_spec d s op.tri hnd 0
      exact ⟨fun hp => absurd hp hpos, fun _ => ⟨0, le_refl _, k1⟩, rfl, k2⟩
  obtain ⟨c1, c2, c3, c4⟩ := key
  refine ⟨c1, c2, fun hd i => ?_⟩
  by_cases hi : i ∈ op.tri
  · rcases lt_or_ge (1 / 2 * (q1 + q2) * dt) 0 with hn | hp
    · obtain ⟨depth, hd0, hall⟩ := c2 hn
      rw [hall i hi]
      exact hd0
    · obtain ⟨level, hl⟩ := c1 hp
      unfold State.depth
      rw [hl i hi, c3]
      have := hd i
      unfold State.depth at this
      linarith [le_max_left (s.stage i) level]
  · unfold State.depth
    rw [c4 i hi, c3]
    exact hd i

/-- **C30.** Velocities: with a prescribed velocity the inlet has that velocity after the step; with `zero_velocity` it is at rest; in
either case, and otherwise too, the momentum of a triangle is its new depth times a velocity. An inlet that ran dry is at rest. -/
theorem C30_velocity (srt : Argsort K) (d : Dom K n) (op op' : InletOp K n) (s s' : State K n) (t dt : K)
    (hnd : op.tri.Nodup) (h : op.call srt d s t dt = .ok (op', s'))
    (q1 q2 : K) (h1 : wantedQ op t = some q1) (h2 : wantedQ op (t + dt) = some q2) (i : Fin n) (hi : i ∈ op.tri) :
    (waterIn d s op.tri.toFinset + 1 / 2 * (q1 + q2) * dt < 0 → s'.xmom i = 0 ∧ s'.ymom i = 0) ∧
      (op.zeroVelocity = true → s'.xmom i = 0 ∧ s'.ymom i = 0) ∧
      (0 ≤ waterIn d s op.tri.toFinset + 1 / 2 * (q1 + q2) * dt → op.zeroVelocity = false → ∀ u v, op.velocity = some (u, v) →
        s'.xmom i = s'.depth i * u ∧ s'.ymom i = s'.depth i * v) ∧
      (0 ≤ waterIn d s op.tri.toFinset + 1 / 2 * (q1 + q2) * dt → op.zeroVelocity = false → op.velocity = none →
        s'.xmom i * (s.depth i * s.depth i + 1 / 10 ^ 6) = s'.depth i * (s.depth i * s.xmom i) ∧
        s'.ymom i * (s.depth i * s.depth i + 1 / 10 ^ 6) = s'.depth i * (s.depth i * s.ymom i)) := by
  -- what `momenta` does in one triangle
  have mom : ∀ new : State K n,
      (op.zeroVelocity = true → (op.momenta s new).xmom i = 0 ∧ (op.momenta s new).ymom i = 0) ∧
      (op.zeroVelocity = false → ∀ u v, op.velocity = some (u, v) →
        (op.momenta s new).xmom i = new.depth i * u ∧ (op.momenta s new).ymom i = new.depth i * v) ∧
      (op.zeroVelocity = false → op.velocity = none →
        (op.momenta s new).xmom i * (s.depth i * s.depth i + 1 / 10 ^ 6) = new.depth i * (s.depth i * s.xmom i) ∧
        (op.momenta s new).ymom i * (s.depth i * s.depth i + 1 / 10 ^ 6) = new.depth i * (s.depth i * s.ymom i)) := by
    intro new
    unfold InletOp.momenta Inlet.setMoms putAll
    simp only
    have hne : s.depth i * s.depth i + 1 / 10 ^ 6 ≠ 0 := by
      have := mul_self_nonneg (s.depth i)
      have : (0 : K) < 1 / 10 ^ 6 := by positivity
      linarith
    refine ⟨fun hz => ?_, fun hz u v hv => ?_, fun hz hv => ?_⟩
    · rw [if_pos hz]
      simp only
      rw [put_map, if_pos hi, put_map, if_pos hi]
      exact ⟨rfl, rfl⟩
    · rw [if_neg (by simp [hz]), hv]
      simp only
      rw [put_map, if_pos hi, put_map, if_pos hi]
      exact ⟨rfl, rfl⟩
    · rw [if_neg (by simp [hz]), hv]
      simp only
      rw [put_map, if_pos hi, put_map, if_pos hi]
      unfold State.depth at hne ⊢
      unfold velocityProtection
      constructor
      · rw [mul_assoc, div_mul_cancel₀ _ hne]
        ring
      · rw [mul_assoc, div_mul_cancel₀ _ hne]
        ring
  have depth_eq : ∀ new : State K n, (op.momenta s new).depth i = new.depth i := by
    intro new
    obtain ⟨m1, m2, -, -⟩ := momenta_same op s new
    unfold State.depth
    rw [m1, m2]
  unfold InletOp.call at h
  simp only at h
  rw [(updateQ_ok op t q1).2 h1, (updateQ_ok op (t + dt) q2).2 h2] at h
  simp only at h
  rw [volume_eq d s op.tri hnd] at h
  split_ifs at h with hcur hpos hen
  · cases hset : Inlet.setStagesEvenly srt d s op.tri (1 / 2 * (q1 + q2) * dt) with
    | error e => rw [hset] at h; cases h
    | ok s1 =>
      rw [hset] at h
      simp only [Except.ok.injEq, Prod.mk.injEq] at h
      obtain ⟨rfl, rfl⟩ := h
      obtain ⟨m1, m2, m3⟩ := mom { s1 with booked := s1.booked + 1 / 2 * (q1 + q2) * dt }
      rw [depth_eq]
      exact ⟨fun hn => by linarith, m1, fun _ => m2, fun _ => m3⟩
  · simp only [Except.ok.injEq, Prod.mk.injEq] at h
    obtain ⟨rfl, rfl⟩ := h
    obtain ⟨m1, m2, m3⟩ := mom { Inlet.setDepths s op.tri ((waterIn d s op.tri.toFinset + 1 / 2 * (q1 + q2) * dt) / Inlet.area d op.tri) with booked := (Inlet.setDepths s op.tri ((waterIn d s op.tri.toFinset + 1 / 2 * (q1 + q2) * dt) / Inlet.area d op.tri)).booked + 1 / 2 * (q1 + q2) * dt }
    rw [depth_eq]
    exact ⟨fun hn => absurd hn (not_lt.2 hen), m1, fun _ => m2, fun _ => m3⟩
  · simp only [Except.ok.injEq, Prod.mk.injEq] at h
    obtain ⟨rfl, rfl⟩ := h
    have hz : (Inlet.setMoms { Inlet.setDepths s op.tri 0 with booked := (Inlet.setDepths s op.tri 0).booked - waterIn d s op.tri.toFinset } op.tri 0 0).xmom i = 0 ∧
        (Inlet.setMoms { Inlet.setDepths s op.tri 0 with booked := (Inlet.setDepths s op.tri 0).booked - waterIn d s op.tri.toFinset } op.tri 0 0).ymom i = 0 := by
      unfold Inlet.setMoms putAll
      simp only
      rw [put_map, if_pos hi, put_map, if_pos hi]
      exact ⟨rfl, rfl⟩
    exact ⟨fun _ => hz, fun _ => hz, fun hp => absurd hp hen, fun hp => absurd hp hen⟩

/-- **C30.** A step fails exactly when the water in the inlet is negative in total, or the discharge is a function whose data do not
cover `t` or `t + dt` and no default was given. -/
theorem C30_fails (srt : Argsort K) (d : Dom K n) (op : InletOp K n) (s : State K n) (t dt : K) (hnd : op.tri.Nodup) :
    (∃ e, op.call srt d s t dt = .error e) ↔
      waterIn d s op.tri.toFinset < 0 ∨ wantedQ op t = none ∨ wantedQ op (t + dt) = none := by
  have none_iff : ∀ t, wantedQ op t = none ↔ ∃ e, op.updateQ t = .error e := by
    intro t
    unfold InletOp.updateQ wantedQ
    cases op.q t <;> cases op.default <;> simp
  rw [none_iff, none_iff]
  unfold InletOp.call
  simp only
  rw [volume_eq d s op.tri hnd]
  by_cases hcur : waterIn d s op.tri.toFinset ≥ 0
  · rw [if_pos hcur]
    cases h1 : op.updateQ t with
    | error e => simp
    | ok q1 =>
      cases h2 : op.updateQ (t + dt) with
      | error e => simp
      | ok q2 =>
        simp only [reduceCtorEq, exists_false, or_false, iff_false_intro (not_lt.2 hcur), iff_false]
        by_cases hpos : 1 / 2 * (q1 + q2) * dt ≥ 0
        · rw [if_pos hpos]
          unfold Inlet.setStagesEvenly
          rw [if_pos hpos]
          simp
        · rw [if_neg hpos]
          split_ifs <;> simp
  · rw [if_neg hcur]
    simp [not_le.1 hcur]

/-- An inlet of three triangles with a ledge. -/
def inletOp3 : InletOp ℚ 3 := ⟨[2, 0, 1], fun t => .val (4 * t), none, none, false, 0, 0, 0⟩

/-- Stages 1, 3 and 2 over a flat bed. -/
def steps3 : State ℚ 3 := ⟨![1, 3, 2], fun _ => 0, fun _ => 0, fun _ => 1, fun _ => 0, 0, 0⟩

/-- There is a way to sort. -/
example : GoodSort (fun _ f => Tuple.sort f : Argsort K) := fun _ f _ _ h => Tuple.monotone_sort f h

/-- The order 0, 2, 1 of `steps3` seen through the list 2, 0, 1 is 1, 0, 2. -/
example : Sorts (fun j : Fin 3 => steps3.stage inletOp3.tri[j]) (Equiv.swap 0 1) := by
  unfold Sorts; decide +kernel

example : List.ofFn (levelStages (fun j : Fin 3 => dom3.area inletOp3.tri[j]) (fun j : Fin 3 => steps3.stage inletOp3.tri[j])
    (Equiv.swap 0 1) 2) = [9 / 4, 9 / 4, 3] := by decide +kernel

example : wantedQ inletOp3 0 = some 0 ∧ inletOp3.tri.Nodup ∧ (∀ i, 0 < dom3.area i) ∧ ∀ i, 0 ≤ steps3.depth i := by
  unfold State.depth; decide +kernel

end Verif.Ops
