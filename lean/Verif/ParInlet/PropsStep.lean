import Verif.ParInlet.Props

/-! # C96: a step of a shared inlet -/

set_option linter.unusedSectionVars false

namespace Verif.ParInlet

open Verif.Ops

variable {K : Type*} [Field K] [LinearOrder K] [IsStrictOrderedRing K] {N : ℕ → ℕ} {n : ℕ}

/-- The momentum written in one triangle, from its new depth, its old depth and its old momentum. -/
def momentOf (zero : Bool) (vel : Option K) (new old m : K) : K :=
  if zero then 0
  else match vel with
    | some u => new * u
    | none => new * (m * old / (old * old + velocityProtection))

theorem momenta_at {n : ℕ} (op : InletOp K n) (old new : State K n) (i : Fin n) (hi : i ∈ op.tri) :
    (op.momenta old new).xmom i =
        momentOf op.zeroVelocity (op.velocity.map (·.1)) (new.stage i - new.elev i) (old.stage i - old.elev i) (old.xmom i) ∧
      (op.momenta old new).ymom i =
        momentOf op.zeroVelocity (op.velocity.map (·.2)) (new.stage i - new.elev i) (old.stage i - old.elev i) (old.ymom i) := by
  unfold InletOp.momenta Inlet.setMoms putAll momentOf
  simp only
  by_cases hz : op.zeroVelocity = true
  · rw [if_pos hz, if_pos hz, if_pos hz]
    simp only
    rw [put_map, if_pos hi, put_map, if_pos hi]
    exact ⟨rfl, rfl⟩
  · rw [if_neg hz, if_neg hz, if_neg hz]
    cases op.velocity with
    | none =>
      simp only [Option.map_none]
      rw [put_map, if_pos hi, put_map, if_pos hi]
      exact ⟨rfl, rfl⟩
    | some w =>
      simp only [Option.map_some]
      rw [put_map, if_pos hi, put_map, if_pos hi]
      exact ⟨rfl, rfl⟩

/-- What a processor that shares the inlet keeps besides the flow in it: its own counters grow like those of the inlet on one
processor; nothing outside the inlet changes. -/
structure Kept (op0 op0' : InletOp K n) (s0 s0' : State K n) (ops ops' : InletOps K N) (s s' : States K N) (procs : List ℕ) : Prop where
  tri : ∀ p, (ops' p).tri = (ops p).tri
  appliedQ : ∀ p ∈ procs, (ops' p).appliedQ = op0'.appliedQ
  applied : ∀ p ∈ procs, (ops' p).totalApplied - (ops p).totalApplied = op0'.totalApplied - op0.totalApplied
  requested : ∀ p ∈ procs, (ops' p).totalRequested - (ops p).totalRequested = op0'.totalRequested - op0.totalRequested
  booked : ∀ p ∈ procs, (s' p).booked - (s p).booked = s0'.booked - s0.booked
  outside : ∀ p ∈ procs, ∀ i, i ∉ (ops p).tri → SameAt (s p) (s' p) i
  others : ∀ p, p ∉ procs → s' p = s p ∧ ops' p = ops p

theorem booked_tri (procs : List ℕ) (ops : InletOps K N) (a b c : K) (p : ℕ) : (booked procs ops a b c p).tri = (ops p).tri := by
  unfold booked
  split_ifs <;> rfl

theorem booked_mem (procs : List ℕ) (ops : InletOps K N) (a b c : K) (p : ℕ) (hp : p ∈ procs) :
    booked procs ops a b c p =
      { ops p with appliedQ := a, totalRequested := (ops p).totalRequested + b, totalApplied := (ops p).totalApplied + c } := by
  unfold booked
  rw [if_pos hp]

/-- **C96.** A step of a shared inlet does in every triangle exactly what the operator does when the whole domain is on one processor,
and changes the counters of every processor that shares the inlet as those of the operator on one processor; nothing else changes. -/
theorem C96_same (srt srt0 : Argsort K) (hsrt : GoodSort srt) (hsrt0 : GoodSort srt0) (top : K) (d0 : Dom K n)
    (ha : ∀ i, 0 < d0.area i) (d : Doms K N) (had : ∀ p i, 0 < (d p).area i) (op0 : InletOp K n) (hne : op0.tri ≠ [])
    (hnd : op0.tri.Nodup) (ops : InletOps K N) (master : ℕ) (procs : List ℕ) (hm : master ∈ procs) (hl : Listed ops procs)
    (home : (p : ℕ) → Fin (N p) → Fin n) (h : Shared d0 op0.tri d ops procs home) (hargs : SameArgs op0 ops procs)
    (s0 : State K n) (s : States K N) (hs : SameFlow s0 s ops procs home) (htop : Below top s ops procs) (t dt : K) (hdt : dt ≠ 0)
    (op0' : InletOp K n) (s0' : State K n) (hcall : op0.call srt0 d0 s0 t dt = .ok (op0', s0')) :
    ∃ ops' s', call srt top d ops s master procs t dt = .ok (ops', s') ∧ SameFlow s0' s' ops procs home ∧
      Kept op0 op0' s0 s0' ops ops' s s' procs ∧ SameArgs op0' ops' procs ∧ op0'.tri = op0.tri := by
  have hA := globalArea_eq d0 op0.tri hnd d ops master procs hm hl home h
  have hV : globalVolume d s ops master procs = Inlet.volume d0 s0 op0.tri := by
    rw [globalVolume_eq d s ops master procs hm hl, volume_eq d0 s0 op0.tri hnd, water_same d0 op0.tri d ops procs home h s0 s hs]
  have hQ : ∀ t q, op0.updateQ t = .ok q → updateQ (ops master) t = .ok q := by
    intro t q hq
    obtain ⟨h1, h2, -, -⟩ := hargs master hm
    unfold updateQ
    unfold InletOp.updateQ at hq ⊢
    rw [h1, h2, hq]
  have hpne : Nonempty ops procs := by
    obtain ⟨g, hg⟩ := List.exists_mem_of_ne_nil _ hne
    obtain ⟨p, hp, i, hi, -⟩ := h.covers g hg
    exact ⟨p, hp, List.ne_nil_of_mem hi⟩
  unfold InletOp.call at hcall
  simp only at hcall
  unfold call
  simp only
  rw [hV, hA]
  by_cases hcur : Inlet.volume d0 s0 op0.tri ≥ 0
  · rw [if_pos hcur] at hcall
    cases hq1 : op0.updateQ t with
    | error e => rw [hq1] at hcall; cases hcall
    | ok q1 =>
      rw [hq1] at hcall
      cases hq2 : op0.updateQ (t + dt) with
      | error e => rw [hq2] at hcall; cases hcall
      | ok q2 =>
        rw [hq2] at hcall
        simp only at hcall
        rw [hQ t q1 hq1, hQ (t + dt) q2 hq2]
        simp only
        rw [if_pos hcur]
        generalize hvol : 1 / 2 * (q1 + q2) * dt = volume at *
        have hvq : volume / dt = 1 / 2 * (q1 + q2) := by rw [← hvol, mul_div_cancel_right₀ _ hdt]
        by_cases hpos : volume ≥ 0
        · rw [if_pos hpos] at hcall ⊢
          cases hset : Inlet.setStagesEvenly srt0 d0 s0 op0.tri volume with
          | error e => rw [hset] at hcall; cases hcall
          | ok s1 =>
            rw [hset] at hcall
            simp only [Except.ok.injEq, Prod.mk.injEq] at hcall
            obtain ⟨rfl, rfl⟩ := hcall
            obtain ⟨-, ⟨lev0, hlev0⟩, k1, k2, k3, k4, k5, k6⟩ := C29_inlet srt0 hsrt0 d0 s0 s1 op0.tri hne hnd ha _ hset
            obtain ⟨sp, hsp, ⟨lev, hlev⟩, j1, j2, j3, j4⟩ := C96_level srt hsrt top d s ops master procs hm hl had hpne htop volume hpos
            rw [hsp]
            -- the two fillings agree
            have hagree : ∀ p ∈ procs, ∀ i ∈ (ops p).tri, (sp p).stage i = s1.stage (home p i) := by
              have hsame : ∀ g ∈ op0.tri.toFinset, s1.stage g = max (s0.stage g) lev := by
                refine level_unique d0 op0.tri.toFinset ha s0.stage s1.stage (fun g => max (s0.stage g) lev) lev0 lev
                  (fun i hi => hlev0 i (by simpa using hi)) (fun _ _ => rfl) ?_
                rw [globalVolume_eq d s ops master procs hm hl] at hV
                have e1 : sharedWater d sp ops procs = waterIn d0 s1 op0.tri.toFinset := by
                  rw [j3, k2, water_same d0 op0.tri d ops procs home h s0 s hs]
                have e2 : sharedWater d sp ops procs =
                    ∑ g ∈ op0.tri.toFinset, d0.area g * (max (s0.stage g) lev - s0.elev g) := by
                  rw [← shared_sum d0 op0.tri d ops procs home h]
                  unfold sharedWater
                  refine Finset.sum_congr rfl fun p hp => Finset.sum_congr rfl fun i hi => ?_
                  have hp' : p ∈ procs := by simpa using hp
                  have hi' : i ∈ (ops p).tri := by simpa using hi
                  obtain ⟨a1, a2, -, -⟩ := hs p hp' i hi'
                  rw [hlev p hp' i hi', (j4 p).1, a1, a2, h.area p hp' i hi']
                rw [e1] at e2
                unfold waterIn State.depth at e2
                rw [k3] at e2
                simp only [mul_sub, Finset.sum_sub_distrib] at e2
                linarith
              intro p hp i hi
              rw [hlev p hp i hi, hsame _ (by simpa using h.lands p hp i hi), (hs p hp i hi).1]
            refine ⟨_, _, rfl, fun p hp i hi => ?_, ⟨?_, ?_, ?_, ?_, ?_, ?_, ?_⟩, ?_, rfl⟩
            · beta_reduce; rw [if_pos hp]
              obtain ⟨a1, a2, a3, a4⟩ := hs p hp i hi
              obtain ⟨m1, m2, -, -⟩ := momenta_same (ops p) (s p) { sp p with booked := (sp p).booked + volume }
              obtain ⟨n1, n2, -, -⟩ := momenta_same op0 s0 { s1 with booked := s1.booked + volume }
              obtain ⟨c1, c2⟩ := momenta_at (ops p) (s p) { sp p with booked := (sp p).booked + volume } i hi
              obtain ⟨c3, c4⟩ := momenta_at op0 s0 { s1 with booked := s1.booked + volume } (home p i) (h.lands p hp i hi)
              obtain ⟨-, -, b3, b4⟩ := hargs p hp
              refine ⟨?_, ?_, ?_, ?_⟩
              · rw [m1, n1]
                exact hagree p hp i hi
              · rw [m2, n2]
                show (sp p).elev i = s1.elev _
                rw [(j4 p).1, k3, a2]
              · rw [c1, c3, b3, b4]
                simp only
                rw [hagree p hp i hi, (j4 p).1, k3, a1, a2, a3]
              · rw [c2, c4, b3, b4]
                simp only
                rw [hagree p hp i hi, (j4 p).1, k3, a1, a2, a4]
            · exact fun p => booked_tri _ _ _ _ _ _
            · intro p hp
              rw [booked_mem _ _ _ _ _ _ hp]
              exact hvq
            · intro p hp
              rw [booked_mem _ _ _ _ _ _ hp]
              simp only
              ring
            · intro p hp
              rw [booked_mem _ _ _ _ _ _ hp]
              simp only
              ring
            · intro p hp
              rw [if_pos hp, (momenta_same _ _ _).2.2.1, (momenta_same _ _ _).2.2.1]
              simp only
              rw [(j4 p).2.2.2, k6]
              ring
            · intro p hp i hi
              rw [if_pos hp]
              obtain ⟨m1, m2, -, m4⟩ := momenta_same (ops p) (s p) { sp p with booked := (sp p).booked + volume }
              refine ⟨?_, ?_, ?_, ?_⟩
              · rw [m1]; exact j1 p hp i hi
              · rw [m2]; show (sp p).elev i = _; rw [(j4 p).1]
              · rw [(m4 i hi).1]; show (sp p).xmom i = _; rw [(j4 p).2.1]
              · rw [(m4 i hi).2]; show (sp p).ymom i = _; rw [(j4 p).2.2.1]
            · intro p hp
              rw [if_neg hp]
              exact ⟨j2 p hp, by unfold booked; rw [if_neg hp]⟩
            · intro p hp
              rw [booked_mem _ _ _ _ _ _ hp]
              exact hargs p hp
        · rw [if_neg hpos] at hcall ⊢
          by_cases hen : Inlet.volume d0 s0 op0.tri + volume ≥ 0
          · rw [if_pos hen] at hcall ⊢
            simp only [Except.ok.injEq, Prod.mk.injEq] at hcall
            obtain ⟨rfl, rfl⟩ := hcall
            generalize hdep : (Inlet.volume d0 s0 op0.tri + volume) / Inlet.area d0 op0.tri = depth at *
            have hset : ∀ {n : ℕ} (s : State K n) (tri : Inlet n) (i : Fin n), i ∈ tri →
                (Inlet.setDepths s tri depth).stage i = s.elev i + depth := by
              intro n s tri i hi
              unfold Inlet.setDepths
              simp only
              rw [put_map, if_pos hi]
            refine ⟨_, _, rfl, fun p hp i hi => ?_, ⟨?_, ?_, ?_, ?_, ?_, ?_, ?_⟩, ?_, rfl⟩
            · beta_reduce; rw [if_pos hp]
              obtain ⟨a1, a2, a3, a4⟩ := hs p hp i hi
              have hg := h.lands p hp i hi
              generalize hP : ({ Inlet.setDepths (s p) (ops p).tri depth with
                booked := (Inlet.setDepths (s p) (ops p).tri depth).booked + volume } : State K (N p)) = P
              generalize hS : ({ Inlet.setDepths s0 op0.tri depth with
                booked := (Inlet.setDepths s0 op0.tri depth).booked + volume } : State K n) = S
              have hPs : P.stage i = (s p).elev i + depth := by rw [← hP]; exact hset _ _ _ hi
              have hPe : P.elev i = (s p).elev i := by rw [← hP]; rfl
              have hSs : S.stage (home p i) = s0.elev (home p i) + depth := by rw [← hS]; exact hset _ _ _ hg
              have hSe : S.elev (home p i) = s0.elev (home p i) := by rw [← hS]; rfl
              obtain ⟨m1, m2, -, -⟩ := momenta_same (ops p) (s p) P
              obtain ⟨n1, n2, -, -⟩ := momenta_same op0 s0 S
              obtain ⟨c1, c2⟩ := momenta_at (ops p) (s p) P i hi
              obtain ⟨c3, c4⟩ := momenta_at op0 s0 S (home p i) hg
              obtain ⟨-, -, b3, b4⟩ := hargs p hp
              refine ⟨?_, ?_, ?_, ?_⟩
              · rw [m1, n1, hPs, hSs, a2]
              · rw [m2, n2, hPe, hSe, a2]
              · rw [c1, c3, b3, b4, hPs, hSs, hPe, hSe, a1, a2, a3]
              · rw [c2, c4, b3, b4, hPs, hSs, hPe, hSe, a1, a2, a4]
            · exact fun p => booked_tri _ _ _ _ _ _
            · intro p hp
              rw [booked_mem _ _ _ _ _ _ hp]
              exact hvq
            · intro p hp
              rw [booked_mem _ _ _ _ _ _ hp]
              simp only
              ring
            · intro p hp
              rw [booked_mem _ _ _ _ _ _ hp]
              simp only
              ring
            · intro p hp
              rw [if_pos hp, (momenta_same _ _ _).2.2.1, (momenta_same _ _ _).2.2.1]
              show (s p).booked + volume - (s p).booked = s0.booked + volume - s0.booked
              ring
            · intro p hp i hi
              rw [if_pos hp]
              obtain ⟨m1, m2, -, m4⟩ := momenta_same (ops p) (s p) ({ Inlet.setDepths (s p) (ops p).tri depth with
                booked := (Inlet.setDepths (s p) (ops p).tri depth).booked + volume } : State K (N p))
              refine ⟨?_, ?_, ?_, ?_⟩
              · rw [m1]; exact put_notMem _ _ _ _ hi
              · rw [m2]; rfl
              · rw [(m4 i hi).1]; rfl
              · rw [(m4 i hi).2]; rfl
            · intro p hp
              rw [if_neg hp]
              exact ⟨rfl, by unfold booked; rw [if_neg hp]⟩
            · intro p hp
              rw [booked_mem _ _ _ _ _ _ hp]
              exact hargs p hp
          · rw [if_neg hen] at hcall ⊢
            simp only [Except.ok.injEq, Prod.mk.injEq] at hcall
            obtain ⟨rfl, rfl⟩ := hcall
            have hset : ∀ {n : ℕ} (s : State K n) (tri : Inlet n) (b : K) (i : Fin n), i ∈ tri →
                (Inlet.setMoms { Inlet.setDepths s tri 0 with booked := b } tri 0 0).stage i = s.elev i ∧
                (Inlet.setMoms { Inlet.setDepths s tri 0 with booked := b } tri 0 0).xmom i = 0 ∧
                (Inlet.setMoms { Inlet.setDepths s tri 0 with booked := b } tri 0 0).ymom i = 0 := by
              intro n s tri b i hi
              unfold Inlet.setMoms Inlet.setDepths putAll
              simp only
              rw [put_map, if_pos hi, put_map, if_pos hi, put_map, if_pos hi]
              exact ⟨add_zero _, rfl, rfl⟩
            refine ⟨_, _, rfl, fun p hp i hi => ?_, ⟨?_, ?_, ?_, ?_, ?_, ?_, ?_⟩, ?_, rfl⟩
            · beta_reduce; rw [if_pos hp]
              obtain ⟨a1, a2, a3, a4⟩ := hs p hp i hi
              obtain ⟨c1, c2, c3⟩ := hset (s p) (ops p).tri ((Inlet.setDepths (s p) (ops p).tri 0).booked - Inlet.volume d0 s0 op0.tri) i hi
              obtain ⟨e1, e2, e3⟩ := hset s0 op0.tri ((Inlet.setDepths s0 op0.tri 0).booked - Inlet.volume d0 s0 op0.tri) (home p i)
                (h.lands p hp i hi)
              exact ⟨by rw [c1, e1, a2], a2, by rw [c2, e2], by rw [c3, e3]⟩
            · exact fun p => booked_tri _ _ _ _ _ _
            · intro p hp
              rw [booked_mem _ _ _ _ _ _ hp]
            · intro p hp
              rw [booked_mem _ _ _ _ _ _ hp]
              simp only
              ring
            · intro p hp
              rw [booked_mem _ _ _ _ _ _ hp]
              simp only
              ring
            · intro p hp
              rw [if_pos hp]
              show (s p).booked - _ - (s p).booked = s0.booked - _ - s0.booked
              ring
            · intro p hp i hi
              rw [if_pos hp]
              exact ⟨put_notMem _ _ _ _ hi, rfl, put_notMem _ _ _ _ hi, put_notMem _ _ _ _ hi⟩
            · intro p hp
              rw [if_neg hp]
              exact ⟨rfl, by unfold booked; rw [if_neg hp]⟩
            · intro p hp
              rw [booked_mem _ _ _ _ _ _ hp]
              exact hargs p hp
  · rw [if_neg hcur] at hcall
    cases hcall

end Verif.ParInlet
