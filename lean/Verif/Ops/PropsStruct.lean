import Verif.Ops.PropsInlet
import Mathlib.Tactic.LinearCombination

/-! # C31: structures (culverts, weirs) move water from one region to another -/

namespace Verif.Ops

set_option linter.unusedSectionVars false

variable {K : Type*} [Field K] [LinearOrder K] [IsStrictOrderedRing K] {n : ℕ}

/-- Total of a quantity per area over a set of triangles. -/
def totalIn (d : Dom K n) (f : Fin n → K) (c : Finset (Fin n)) : K := ∑ i ∈ c, d.area i * f i

theorem total_uniform (d : Dom K n) (tri : Inlet n) (hnd : tri.Nodup) (f : Fin n → K) (v : K) (h : ∀ i ∈ tri, f i = v) :
    totalIn d f tri.toFinset = v * Inlet.area d tri := by
  unfold totalIn Inlet.area
  rw [← List.sum_toFinset _ hnd, Finset.mul_sum]
  refine Finset.sum_congr rfl fun i hi => ?_
  rw [h i (List.mem_toFinset.1 hi), mul_comm]

theorem average_eq (d : Dom K n) (tri : Inlet n) (hnd : tri.Nodup) (hA : 0 < Inlet.area d tri) (f : Fin n → K) :
    Inlet.average d tri f * Inlet.area d tri = totalIn d f tri.toFinset := by
  unfold Inlet.average totalIn
  rw [div_mul_cancel₀ _ hA.ne', List.sum_toFinset _ hnd]
  congr 2
  funext i
  ring

theorem averageDepth_eq (d : Dom K n) (s : State K n) (tri : Inlet n) (hnd : tri.Nodup) (hA : 0 < Inlet.area d tri) :
    Inlet.averageDepth d s tri * Inlet.area d tri = waterIn d s tri.toFinset := by
  unfold Inlet.averageDepth
  rw [div_mul_cancel₀ _ hA.ne', volume_eq d s tri hnd]

theorem setMoms_in (s : State K n) (tri : Inlet n) (x y : K) (i : Fin n) (hi : i ∈ tri) :
    (Inlet.setMoms s tri x y).xmom i = x ∧ (Inlet.setMoms s tri x y).ymom i = y := by
  unfold Inlet.setMoms putAll
  simp only
  rw [put_map, if_pos hi, put_map, if_pos hi]
  exact ⟨rfl, rfl⟩

theorem setMoms_out (s : State K n) (tri : Inlet n) (x y : K) (i : Fin n) (hi : i ∉ tri) :
    (Inlet.setMoms s tri x y).xmom i = s.xmom i ∧ (Inlet.setMoms s tri x y).ymom i = s.ymom i :=
  ⟨put_notMem _ _ _ _ hi, put_notMem _ _ _ _ hi⟩

theorem setDepths_stage (s : State K n) (tri : Inlet n) (depth : K) (i : Fin n) :
    (Inlet.setDepths s tri depth).stage i = if i ∈ tri then s.elev i + depth else s.stage i := by
  unfold Inlet.setDepths
  simp only
  rw [put_map]

/-- The arithmetic of one step: volume moved `v` and depth left `D - v / A`. -/
theorem step_arith (D A q dt : K) (hA : 0 < A) (hq : 0 ≤ q * dt) (adj : Bool) (hadj : adj = false → q * dt < D * A) :
    let dtQonD := if D > 0 then dt * q / D else 0
    let factor := 1 / (1 + dtQonD / A)
    let newDepth := if adj then D * factor else D - dt * q / A
    let dtStar := if adj then (if D > 0 then dt * newDepth / D else 0) else dt
    (D - newDepth) * A = q * dtStar ∧ 0 ≤ q * dtStar ∧ q * dtStar ≤ q * dt ∧ (D ≤ 0 → q * dtStar = 0) ∧ (0 < D → 0 < newDepth) ∧
      (adj = false → q * dtStar = q * dt) ∧ (adj = true → 0 < D → q * dtStar * (D * A + q * dt) = q * dt * (D * A)) := by
  cases adj with
  | false =>
    have h1 := hadj rfl
    simp only [Bool.false_eq_true, if_false]
    have e : (D - (D - dt * q / A)) * A = q * dt := by
      rw [sub_sub_cancel, div_mul_cancel₀ _ hA.ne']; ring
    refine ⟨e, hq, le_refl _, fun h => ?_, fun h => ?_, fun _ => trivial, fun h => by simp at h⟩
    · exact absurd (lt_of_le_of_lt hq h1) (not_lt.2 (mul_nonpos_of_nonpos_of_nonneg h hA.le))
    · rw [sub_pos, div_lt_iff₀ hA]
      linarith [mul_comm dt q]
  | true =>
    simp only [if_true]
    by_cases hD : D > 0
    · rw [if_pos hD, if_pos hD]
      have hDA : 0 < D * A := mul_pos hD hA
      have hq' : 0 ≤ dt * q := by linarith [mul_comm dt q]
      have hden : 0 < D * A + dt * q := by linarith
      have hf : 1 / (1 + dt * q / D / A) = D * A / (D * A + dt * q) := by
        rw [div_div, one_div, eq_div_iff hden.ne', inv_mul_eq_iff_eq_mul₀, add_mul, one_mul, div_mul_cancel₀ _ hDA.ne']
        have := div_nonneg hq' hDA.le
        linarith
      rw [hf]
      have e2 : dt * (D * (D * A / (D * A + dt * q))) / D = dt * (D * A / (D * A + dt * q)) := by
        rw [div_eq_iff hD.ne']; ring
      rw [e2]
      have hfr0 : 0 ≤ D * A / (D * A + dt * q) := div_nonneg hDA.le hden.le
      have hfr1 : D * A / (D * A + dt * q) ≤ 1 := by rw [div_le_one hden]; linarith
      have hfe : D * A / (D * A + dt * q) * (D * A + dt * q) = D * A := div_mul_cancel₀ _ hden.ne'
      have hfp : 0 < D * A / (D * A + dt * q) := div_pos hDA hden
      generalize D * A / (D * A + dt * q) = r at *
      refine ⟨by linear_combination -hfe, ?_, ?_, fun h => absurd hD (not_lt.2 h), fun _ => mul_pos hD hfp, fun h => by simp at h,
        fun _ _ => by linear_combination q * dt * hfe⟩
      · have := mul_nonneg hq hfr0
        linarith [mul_assoc q dt r]
      · have := mul_le_mul_of_nonneg_left hfr1 hq
        linarith [mul_assoc q dt r]
    · rw [if_neg hD, if_neg hD]
      simp only [zero_div, add_zero, div_one, mul_one, sub_self, zero_mul, mul_zero]
      exact ⟨trivial, le_refl _, hq, fun _ => trivial, fun h => absurd h hD, fun h => by simp at h, fun _ h => absurd h hD⟩

/-- **C31.** A structure with a discharge that is not negative moves one volume from its inflow region to its outflow region. The
volume is at most the discharge times the timestep, exactly that unless the inflow region would run dry (or the adjustment is always
on), and never more than the water that is there. It is what is accumulated and reported. Nothing else changes, and the assertion in
the code never fails. -/
theorem C31_moves (d : Dom K n) (op : StructOp K n) (s : State K n) (q speed dt : K)
    (hin : op.inflow ≠ []) (hout : op.outflow ≠ []) (hndi : op.inflow.Nodup) (hndo : op.outflow.Nodup)
    (hdis : ∀ i ∈ op.inflow, i ∉ op.outflow) (ha : ∀ i, 0 < d.area i) (hq : 0 ≤ q) (hdt : 0 < dt) :
    ∃ op' s' v, op.call d s q speed dt = .ok (op', s') ∧
      waterIn d s' op.inflow.toFinset = waterIn d s op.inflow.toFinset - v ∧
      waterIn d s' op.outflow.toFinset = waterIn d s op.outflow.toFinset + v ∧
      op'.accumulated = op.accumulated + v ∧ op'.discharge * dt = v ∧
      0 ≤ v ∧ v ≤ q * dt ∧ (0 ≤ waterIn d s op.inflow.toFinset → v ≤ waterIn d s op.inflow.toFinset) ∧
      (op.alwaysAdjust = false → q * dt < waterIn d s op.inflow.toFinset → v = q * dt) ∧
      (op.alwaysAdjust = true ∨ waterIn d s op.inflow.toFinset ≤ q * dt → 0 < waterIn d s op.inflow.toFinset →
        v * (waterIn d s op.inflow.toFinset + q * dt) = q * dt * waterIn d s op.inflow.toFinset) ∧
      (waterIn d s op.inflow.toFinset ≤ 0 → v = 0) ∧
      (∀ i, i ∉ op.inflow → i ∉ op.outflow → SameAt s s' i) ∧ s'.elev = s.elev ∧ s'.booked = s.booked ∧
      (∃ a, ∀ i ∈ op.inflow, s'.depth i = a) ∧ (∃ b, ∀ i ∈ op.outflow, s'.depth i = b) ∧
      ((∀ i, 0 ≤ s.depth i) → ∀ i, 0 ≤ s'.depth i) := by
  have hAi := area_pos d op.inflow hin ha
  have hAo := area_pos d op.outflow hout ha
  have hqdt : 0 ≤ q * dt := mul_nonneg hq hdt.le
  have hD := averageDepth_eq d s op.inflow hndi hAi
  have hDo := averageDepth_eq d s op.outflow hndo hAo
  have harith := step_arith (Inlet.averageDepth d s op.inflow) (Inlet.area d op.inflow) q dt hAi hqdt
    (op.alwaysAdjust || decide (Inlet.averageDepth d s op.inflow * Inlet.area d op.inflow ≤ q * dt)) (by
      intro h
      rw [Bool.or_eq_false_iff, decide_eq_false_iff_not, not_le] at h
      exact h.2)
  unfold StructOp.call
  simp only at harith ⊢
  generalize hDg : Inlet.averageDepth d s op.inflow = D at *
  generalize hAg : Inlet.area d op.inflow = A at *
  generalize hBg : Inlet.area d op.outflow = B at *
  rw [← hD]
  generalize hadj : (op.alwaysAdjust || decide (D * A ≤ q * dt)) = adj at *
  generalize hnew : (if adj = true then D * (1 / (1 + (if D > 0 then dt * q / D else 0) / A)) else D - dt * q / A) = newDepth at *
  generalize hds : (if adj = true then (if D > 0 then dt * newDepth / D else 0) else dt) = dtStar at *
  obtain ⟨k1, k2, k3, k4, k5, k6, k7⟩ := harith
  have hgain : q * dtStar / B * B = q * dtStar := div_mul_cancel₀ _ hAo.ne'
  rw [hgain, k1, sub_self, abs_zero, if_pos (by positivity)]
  set factor2 := (if op.oldMomentum = true then 1 / (1 + (if D > 0 then dt * q / D else 0) / A)
    else if D > 0 then if adj = true then 1 / (1 + (if D > 0 then dt * q / D else 0) * newDepth / (D * A)) else 1 / (1 + dt * q / (D * A))
    else 0) with hf2
  generalize hs1 : Inlet.setMoms (Inlet.setDepths s op.inflow newDepth) op.inflow (Inlet.average d op.inflow s.xmom * factor2)
    (Inlet.average d op.inflow s.ymom * factor2) = s1 at *
  have hs1stage : ∀ i, s1.stage i = if i ∈ op.inflow then s.elev i + newDepth else s.stage i := by
    intro i; rw [← hs1]; exact setDepths_stage _ _ _ _
  have hs1elev : s1.elev = s.elev := by rw [← hs1]; rfl
  have hs1booked : s1.booked = s.booked := by rw [← hs1]; rfl
  have hs1mom : ∀ i, i ∉ op.inflow → s1.xmom i = s.xmom i ∧ s1.ymom i = s.ymom i := by
    intro i hi
    rw [← hs1]
    exact setMoms_out _ _ _ _ _ hi
  have hdout : Inlet.averageDepth d s1 op.outflow = Inlet.averageDepth d s op.outflow := by
    rw [eq_comm, ← mul_left_inj' hAo.ne', ← hBg, averageDepth_eq d s _ hndo (by rw [hBg]; exact hAo),
      averageDepth_eq d s1 _ hndo (by rw [hBg]; exact hAo)]
    refine Finset.sum_congr rfl fun i hi => ?_
    unfold State.depth
    rw [hs1stage, hs1elev, if_neg]
    exact fun h => hdis i h (List.mem_toFinset.1 hi)
  rw [hdout]
  generalize hno : Inlet.averageDepth d s op.outflow = Do at *
  have hstage : ∀ (s2 : State K n) x y i, s2 = Inlet.setDepths s1 op.outflow (Do + q * dtStar / B) →
      (Inlet.setMoms s2 op.outflow x y).stage i =
        if i ∈ op.outflow then s.elev i + (Do + q * dtStar / B) else if i ∈ op.inflow then s.elev i + newDepth else s.stage i := by
    intro s2 x y i h2
    have : (Inlet.setMoms s2 op.outflow x y).stage i = s2.stage i := rfl
    rw [this, h2, setDepths_stage, hs1stage, hs1elev]
  have helev : ∀ (s2 : State K n) x y, s2 = Inlet.setDepths s1 op.outflow (Do + q * dtStar / B) →
      (Inlet.setMoms s2 op.outflow x y).elev = s.elev := by
    intro s2 x y h2
    have : (Inlet.setMoms s2 op.outflow x y).elev = s2.elev := rfl
    rw [this, h2, ← hs1elev]
    rfl
  refine ⟨_, _, q * dtStar, rfl, ?_, ?_, ?_, ?_, k2, k3, ?_, ?_, ?_, ?_, ?_, ?_, ?_, ?_, ?_, ?_⟩
  · have e : newDepth * A = D * A - q * dtStar := by rw [← k1]; ring
    rw [← e]
    refine (total_uniform d op.inflow hndi _ newDepth fun i hi => ?_).trans (by rw [hAg])
    unfold State.depth
    rw [hstage _ _ _ _ rfl, if_neg (hdis i hi), if_pos hi, helev _ _ _ rfl]
    ring
  · have e : (Do + q * dtStar / B) * B = waterIn d s op.outflow.toFinset + q * dtStar := by rw [add_mul, hgain, hDo]
    rw [← e]
    refine (total_uniform d op.outflow hndo _ (Do + q * dtStar / B) fun i hi => ?_).trans (by rw [hBg])
    unfold State.depth
    rw [hstage _ _ _ _ rfl, if_pos hi, helev _ _ _ rfl]
    ring
  · rfl
  · exact div_mul_cancel₀ _ hdt.ne'
  · intro h
    rcases le_or_gt D 0 with hD0 | hD0
    · rw [k4 hD0]; exact h
    · rw [← k1]
      have := mul_pos (k5 hD0) hAi
      linarith [sub_mul D newDepth A]
  · intro h1 h2
    apply k6
    rw [← hadj, Bool.or_eq_false_iff, decide_eq_false_iff_not, not_le]
    exact ⟨h1, h2⟩
  · intro h1 h2
    refine k7 ?_ (pos_of_mul_pos_left h2 hAi.le)
    rw [← hadj, Bool.or_eq_true, decide_eq_true_eq]
    exact h1
  · intro h
    exact k4 (nonpos_of_mul_nonpos_left h hAi)
  · intro i hi ho
    refine ⟨?_, by rw [helev _ _ _ rfl], ?_, ?_⟩
    · rw [hstage _ _ _ _ rfl, if_neg ho, if_neg hi]
    · exact (setMoms_out _ _ _ _ _ ho).1.trans (hs1mom i hi).1
    · exact (setMoms_out _ _ _ _ _ ho).2.trans (hs1mom i hi).2
  · exact helev _ _ _ rfl
  · exact hs1booked
  · refine ⟨newDepth, fun i hi => ?_⟩
    unfold State.depth
    rw [hstage _ _ _ _ rfl, if_neg (hdis i hi), if_pos hi, helev _ _ _ rfl]
    ring
  · refine ⟨Do + q * dtStar / B, fun i hi => ?_⟩
    unfold State.depth
    rw [hstage _ _ _ _ rfl, if_pos hi, helev _ _ _ rfl]
    ring
  · intro hd i
    have hn : ∀ c : Finset (Fin n), 0 ≤ waterIn d s c := fun c => Finset.sum_nonneg fun j _ => mul_nonneg (ha j).le (hd j)
    unfold State.depth
    rw [hstage _ _ _ _ rfl, helev _ _ _ rfl]
    split_ifs
    · have h1 : 0 ≤ Do := nonneg_of_mul_nonneg_left (by rw [hDo]; exact hn _) hAo
      have h2 : 0 ≤ q * dtStar / B := div_nonneg k2 hAo.le
      linarith
    · have h1 : 0 ≤ newDepth := by
        rcases lt_or_ge 0 D with h | h
        · exact (k5 h).le
        · have h0 : D * A = 0 := le_antisymm (mul_nonpos_of_nonpos_of_nonneg h hAi.le) (by rw [hD]; exact hn _)
          have : newDepth * A = 0 := by
            have := k1
            rw [k4 h, sub_mul, h0] at this
            linarith
          rcases mul_eq_zero.1 this with h | h
          · exact h.ge
          · exact absurd h hAi.ne'
      linarith
    · exact hd i

/-- Setting a depth in part of a set of triangles. -/
theorem total_write (d : Dom K n) (f g : Fin n → K) (tri : Inlet n) (hnd : tri.Nodup) (v : K)
    (hg : ∀ i, g i = if i ∈ tri then v else f i) (c : Finset (Fin n)) (hc : ∀ i ∈ tri, i ∈ c) :
    totalIn d g c = totalIn d f c + (v * Inlet.area d tri - totalIn d f tri.toFinset) := by
  have hsub : tri.toFinset ⊆ c := fun i hi => hc i (List.mem_toFinset.1 hi)
  rw [← total_uniform d tri hnd g v fun i hi => by rw [hg, if_pos hi]]
  unfold totalIn
  rw [← Finset.sum_sdiff hsub, ← Finset.sum_sdiff hsub (f := fun i => d.area i * f i)]
  have e : ∑ i ∈ c \ tri.toFinset, d.area i * g i = ∑ i ∈ c \ tri.toFinset, d.area i * f i := by
    refine Finset.sum_congr rfl fun i hi => ?_
    rw [hg, if_neg fun h => (Finset.mem_sdiff.1 hi).2 (List.mem_toFinset.2 h)]
  rw [e]
  ring

theorem setDepths_depth (s : State K n) (tri : Inlet n) (depth : K) (i : Fin n) :
    (Inlet.setDepths s tri depth).depth i = if i ∈ tri then depth else s.depth i := by
  unfold State.depth
  rw [setDepths_stage]
  have : (Inlet.setDepths s tri depth).elev = s.elev := rfl
  rw [this]
  split_ifs <;> ring

theorem water_eq (d : Dom K n) (s : State K n) : water d s = waterIn d s (Finset.univ.filter fun i => d.full i) := by
  unfold water waterIn
  rw [Finset.sum_filter]

/-- **C31.** The water in the domain, or in any set of triangles containing both regions, is what it was. The regions may overlap. -/
theorem C31_conserves (d : Dom K n) (op op' : StructOp K n) (s s' : State K n) (q speed dt : K)
    (hin : op.inflow ≠ []) (hout : op.outflow ≠ []) (hndi : op.inflow.Nodup) (hndo : op.outflow.Nodup)
    (ha : ∀ i, 0 < d.area i) (hq : 0 ≤ q) (hdt : 0 < dt)
    (h : op.call d s q speed dt = .ok (op', s')) (c : Finset (Fin n)) (hc : ∀ i, i ∈ op.inflow ∨ i ∈ op.outflow → i ∈ c) :
    waterIn d s' c = waterIn d s c := by
  have hAi := area_pos d op.inflow hin ha
  have hAo := area_pos d op.outflow hout ha
  have hqdt : 0 ≤ q * dt := mul_nonneg hq hdt.le
  have hD := averageDepth_eq d s op.inflow hndi hAi
  have harith := (step_arith (Inlet.averageDepth d s op.inflow) (Inlet.area d op.inflow) q dt hAi hqdt
    (op.alwaysAdjust || decide (Inlet.averageDepth d s op.inflow * Inlet.area d op.inflow ≤ q * dt)) (by
      intro h
      rw [Bool.or_eq_false_iff, decide_eq_false_iff_not, not_le] at h
      exact h.2)).1
  unfold StructOp.call at h
  simp only at harith h
  rw [ite_eq_iff] at h
  obtain ⟨-, h⟩ | ⟨-, h⟩ := h
  · simp only [Except.ok.injEq, Prod.mk.injEq] at h
    obtain ⟨-, rfl⟩ := h
    refine (total_write d _ _ op.outflow hndo _ (setDepths_depth _ _ _) c fun i hi => hc i (Or.inr hi)).trans ?_
    rw [add_mul, div_mul_cancel₀ _ hAo.ne', averageDepth_eq _ _ _ hndo hAo]
    refine (congrArg (· + _) (total_write d _ _ op.inflow hndi _ (setDepths_depth _ _ _) c fun i hi => hc i (Or.inl hi))).trans ?_
    rw [← harith]
    have e1 : ∀ x : State K n, totalIn d x.depth op.outflow.toFinset = waterIn d x op.outflow.toFinset := fun _ => rfl
    have e2 : totalIn d s.depth op.inflow.toFinset = waterIn d s op.inflow.toFinset := rfl
    have e3 : totalIn d s.depth c = waterIn d s c := rfl
    rw [e1, e2, e3, ← hD]
    ring
  · cases h

/-- **C31.** With neither momentum jet nor zeroed outflow momentum the total momentum is what it was, over any set of triangles
containing both regions. -/
theorem C31_momentum (d : Dom K n) (op op' : StructOp K n) (s s' : State K n) (q speed dt : K)
    (hin : op.inflow ≠ []) (hout : op.outflow ≠ []) (hndi : op.inflow.Nodup) (hndo : op.outflow.Nodup)
    (ha : ∀ i, 0 < d.area i) (h : op.call d s q speed dt = .ok (op', s'))
    (hjet : op.useJet = false) (hzero : op.zeroOut = false) (c : Finset (Fin n)) (hc : ∀ i, i ∈ op.inflow ∨ i ∈ op.outflow → i ∈ c) :
    totalIn d s'.xmom c = totalIn d s.xmom c ∧ totalIn d s'.ymom c = totalIn d s.ymom c := by
  have hAi := area_pos d op.inflow hin ha
  have hAo := area_pos d op.outflow hout ha
  have hput : ∀ (f : Fin n → K) (tri : Inlet n) (v : K) (i : Fin n), putAll f tri v i = if i ∈ tri then v else f i := by
    intro f tri v i
    unfold putAll
    rw [put_map]
  have key : ∀ (f : Fin n → K) (x : K), totalIn d (putAll (putAll f op.inflow x) op.outflow
      (Inlet.average d op.outflow (putAll f op.inflow x) +
        (Inlet.average d op.inflow f - x) * Inlet.area d op.inflow / Inlet.area d op.outflow)) c = totalIn d f c := by
    intro f x
    rw [total_write d _ _ op.outflow hndo _ (hput _ _ _) c fun i hi => hc i (Or.inr hi),
      total_write d _ _ op.inflow hndi _ (hput _ _ _) c fun i hi => hc i (Or.inl hi), add_mul, div_mul_cancel₀ _ hAo.ne', sub_mul,
      average_eq d op.outflow hndo hAo, average_eq d op.inflow hndi hAi]
    ring
  unfold StructOp.call at h
  simp only [hjet, hzero, Bool.false_eq_true, if_false] at h
  rw [ite_eq_iff] at h
  obtain ⟨-, h⟩ | ⟨-, h⟩ := h
  · simp only [Except.ok.injEq, Prod.mk.injEq] at h
    obtain ⟨-, rfl⟩ := h
    exact ⟨key _ _, key _ _⟩
  · cases h

/-- **C31.** The momentum of the inflow region shrinks, it never turns round. -/
theorem C31_inflow_momentum (d : Dom K n) (op op' : StructOp K n) (s s' : State K n) (q speed dt : K)
    (hin : op.inflow ≠ []) (hndi : op.inflow.Nodup) (hdis : ∀ i ∈ op.inflow, i ∉ op.outflow) (ha : ∀ i, 0 < d.area i)
    (hq : 0 ≤ q) (hdt : 0 < dt) (h : op.call d s q speed dt = .ok (op', s')) :
    ∃ c, 0 ≤ c ∧ c ≤ 1 ∧
      totalIn d s'.xmom op.inflow.toFinset = c * totalIn d s.xmom op.inflow.toFinset ∧
      totalIn d s'.ymom op.inflow.toFinset = c * totalIn d s.ymom op.inflow.toFinset := by
  have hAi := area_pos d op.inflow hin ha
  have hput : ∀ (f : Fin n → K) (tri : Inlet n) (v : K) (i : Fin n), putAll f tri v i = if i ∈ tri then v else f i := by
    intro f tri v i
    unfold putAll
    rw [put_map]
  have hdq : 0 ≤ dt * q := mul_nonneg hdt.le hq
  have unit : ∀ x : K, 0 ≤ x → 0 ≤ 1 / (1 + x) ∧ 1 / (1 + x) ≤ 1 := by
    intro x hx
    have : 0 < 1 + x := by linarith
    exact ⟨by positivity, by rw [div_le_one this]; linarith⟩
  unfold StructOp.call at h
  simp only at h
  rw [ite_eq_iff] at h
  obtain ⟨-, h⟩ | ⟨-, h⟩ := h
  · simp only [Except.ok.injEq, Prod.mk.injEq] at h
    obtain ⟨-, rfl⟩ := h
    generalize hD : Inlet.averageDepth d s op.inflow = D at *
    have hfac : 0 ≤ (if D > 0 then dt * q / D else 0) / Inlet.area d op.inflow := by
      split_ifs
      · positivity
      · simp
    have hfac2 : 0 ≤ (if D > 0 then dt * q / D else 0) := by
      split_ifs
      · positivity
      · exact le_refl _
    obtain ⟨u1, u2⟩ := unit _ hfac
    generalize hF : 1 / (1 + (if D > 0 then dt * q / D else 0) / Inlet.area d op.inflow) = F at *
    generalize hG : (if D > 0 then dt * q / D else 0) = G at *
    generalize hadj : (op.alwaysAdjust || decide (D * Inlet.area d op.inflow ≤ q * dt)) = adj at *
    generalize hnew : (if adj = true then D * F else D - dt * q / Inlet.area d op.inflow) = newDepth at *
    generalize hc : (if op.oldMomentum = true then F else if D > 0 then
      if adj = true then 1 / (1 + G * newDepth / (D * Inlet.area d op.inflow)) else 1 / (1 + dt * q / (D * Inlet.area d op.inflow))
      else 0) = c at *
    have hcb : 0 ≤ c ∧ c ≤ 1 := by
      rw [← hc]
      split_ifs with h1 h2 h3
      · exact ⟨u1, u2⟩
      · rw [if_pos h3] at hnew
        rw [← hnew]
        exact unit _ (by positivity)
      · exact unit _ (by positivity)
      · exact ⟨le_refl _, zero_le_one⟩
    refine ⟨c, hcb.1, hcb.2, ?_, ?_⟩
    · rw [← average_eq d op.inflow hndi hAi s.xmom, ← mul_assoc, mul_comm c (Inlet.average d op.inflow s.xmom)]
      refine total_uniform d op.inflow hndi _ _ fun i hi => ?_
      refine (hput _ _ _ i).trans ?_
      rw [if_neg (hdis i hi)]
      refine (hput _ _ _ i).trans ?_
      rw [if_pos hi]
    · rw [← average_eq d op.inflow hndi hAi s.ymom, ← mul_assoc, mul_comm c (Inlet.average d op.inflow s.ymom)]
      refine total_uniform d op.inflow hndi _ _ fun i hi => ?_
      refine (hput _ _ _ i).trans ?_
      rw [if_neg (hdis i hi)]
      refine (hput _ _ _ i).trans ?_
      rw [if_pos hi]
  · cases h

/-- A culvert from triangle 0 to triangles 1 and 2. -/
def culvert : StructOp ℚ 3 := ⟨[0], [1, 2], 1, 0, false, false, false, false, 0, 0⟩

example : culvert.inflow ≠ [] ∧ culvert.outflow ≠ [] ∧ culvert.inflow.Nodup ∧ culvert.outflow.Nodup ∧
    (∀ i ∈ culvert.inflow, i ∉ culvert.outflow) ∧ (∀ i, 0 < dom3.area i) := by decide +kernel

example : (culvert.call dom3 steps3 (1 / 2) 0 1).toOption.map (fun r => (r.1.accumulated, List.ofFn r.2.stage)) =
    some (1 / 2, [1 / 2, 5 / 2, 5 / 2]) := by decide +kernel

end Verif.Ops
