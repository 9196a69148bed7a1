import Verif.ParStruct.Spec
import Verif.ParInlet.Props

/-! # The phases of a call -/

namespace Verif.ParStruct

open Verif.Ops Verif.Culvert

set_option linter.unusedSectionVars false

variable {N : ℕ → ℕ} {n : ℕ}

theorem Fits.sub {g : Group} (hg : Fits g) (i : Bool) : ∀ p ∈ g.inletProcs i, p ∈ g.procs := fun p hp => (hg.procs p).2 ⟨i, hp⟩

/-- The discharge routine. -/
theorem routine_phase {g : Group} (hg : Fits g) (o : Opts) (hc : o.kind.closed = false) (dt : ℝ) (lev : Bool → Enq) (st : ℕ → Stats)
    {out : Out} {sm : Smooth}
    (h : routine o.kind dt o.tau (lev false) (lev true) (st g.master).delta (st g.master).smooth = some (out, sm)) :
    Phase g.procs (fun p => routineP g o dt lev p (st p))
      (fun p => if p = g.master then (⟨sm, out.delta, (st p).accumulated, (st p).discharge⟩, !out.forward, some (out.Q, out.vel))
        else (st p, !out.forward, none)) := by
  have hsub := hg.sub
  have h0 := report_phase (hsub _ _ (hg.enquiry false)) hg.master
    (fun _ => .done [Msg.num (lev false).total, .num (lev false).stage]) rfl (n := 2) rfl
  have h1 := report_phase (hsub _ _ (hg.enquiry true)) hg.master
    (fun _ => .done [Msg.num (lev true).total, .num (lev true).stage]) rfl (n := 2) rfl
  unfold routineP
  refine Phase.bind h0 (Phase.bind h1 ?_)
  set m0 : List M := [Msg.num (lev false).total, .num (lev false).stage] with hm0
  set m1 : List M := [Msg.num (lev true).total, .num (lev true).stage] with hm1
  set dE : ℝ := if o.kind.useVelocityHead then (lev false).total - (lev true).total else (lev false).stage - (lev true).stage with hdE
  set e : ℝ := smoothEnergy (st g.master).smooth.dE dE (factor dt o.tau) with he
  have hch : choose o dt (st g.master) m0 m1 = some (⟨⟨e, (st g.master).smooth.Q⟩, if e < 0 then -e else e, (st g.master).accumulated,
      (st g.master).discharge⟩, decide (e < 0)) := rfl
  have h2 := announce_phase (V := M) hg.master (fun _ hp => hp) hg.nodup
    (fun p => match choose o dt (st p) (if p = g.master then m0 else []) (if p = g.master then m1 else []) with
      | none => .fail
      | some c => .done [Msg.flag c.2]) (vs := [Msg.flag (decide (e < 0))]) (by simp only [if_pos, hch]) (n := 1) rfl
  refine Phase.bind h2 ?_
  have h3 := report_phase (hsub _ _ (hg.enquiry (decide (e < 0)))) hg.master
    (fun _ => .done [Msg.num (lev (decide (e < 0))).depth, .num (lev (decide (e < 0))).specific]) rfl (n := 2) rfl
  have h4 := report_phase (hsub _ _ (hg.enquiry (!decide (e < 0)))) hg.master
    (fun _ => .done [Msg.num (lev (!decide (e < 0))).depth]) rfl (n := 1) rfl
  -- what the routine gives on one processor
  have hfw : out.forward = decide (e ≥ 0) ∧ out.delta = (if e < 0 then -e else e) ∧
      discharge o e (if e < 0 then -e else e) (factor dt o.tau) (st g.master).smooth.Q
        [Msg.num (lev (decide (e < 0))).depth, .num (lev (decide (e < 0))).specific] [Msg.num (lev (!decide (e < 0))).depth]
        = some (out.Q, out.vel, sm.Q) ∧ sm.dE = e := by
    unfold routine at h
    rw [hc] at h
    simp only [Bool.false_eq_true, if_false] at h
    rw [← hdE, ← he] at h
    have hdl : (if e ≥ 0 then e else -e) = if e < 0 then -e else e := by
      by_cases h0 : e < 0
      · rw [if_pos h0, if_neg (not_le.2 h0)]
      · rw [if_neg h0, if_pos (not_lt.1 h0)]
    have hin : (if e ≥ 0 then lev false else lev true) = lev (decide (e < 0)) := by
      by_cases h0 : e < 0
      · rw [if_neg (not_le.2 h0), decide_eq_true h0]
      · rw [if_pos (not_lt.1 h0), decide_eq_false h0]
    have hout : (if e ≥ 0 then lev true else lev false) = lev (!decide (e < 0)) := by
      by_cases h0 : e < 0
      · rw [if_neg (not_le.2 h0), decide_eq_true h0]; rfl
      · rw [if_pos (not_lt.1 h0), decide_eq_false h0]; rfl
    rw [hdl, hin, hout] at h
    unfold discharge
    simp only
    by_cases hd : (lev (decide (e < 0))).depth > 0.01
    · rw [if_pos hd] at h ⊢
      by_cases hs : (lev (decide (e < 0))).specific ≥ 0
      · rw [if_pos hs] at h ⊢
        cases hf : o.kind.fn (if o.kind.useVelocityHead = true then (lev (decide (e < 0))).specific else (lev (decide (e < 0))).depth)
            (if e < 0 then -e else e) (lev (!decide (e < 0))).depth with
        | none => rw [hf] at h; simp at h
        | some f =>
          rw [hf] at h
          simp only [Option.bind_eq_bind, Option.bind_some] at h ⊢
          by_cases hr : (smoothDischarge e (st g.master).smooth.Q f.Q f.area (factor dt o.tau)).2.2 > 10
          · rw [if_pos hr] at h ⊢
            obtain ⟨rfl, rfl⟩ := Prod.mk.inj (Option.some.inj h)
            exact ⟨rfl, rfl, rfl, rfl⟩
          · rw [if_neg hr] at h ⊢
            obtain ⟨rfl, rfl⟩ := Prod.mk.inj (Option.some.inj h)
            exact ⟨rfl, rfl, rfl, rfl⟩
      · rw [if_neg hs] at h
        exact absurd h (by simp)
    · rw [if_neg hd] at h ⊢
      obtain ⟨rfl, rfl⟩ := Prod.mk.inj (Option.some.inj h)
      exact ⟨rfl, rfl, rfl, rfl⟩
  obtain ⟨hf1, hf2, hf3, hf4⟩ := hfw
  have hrev : (!out.forward) = decide (e < 0) := by
    rw [hf1]
    by_cases h0 : e < 0
    · rw [decide_eq_true h0, decide_eq_false (not_le.2 h0)]; rfl
    · rw [decide_eq_false h0, decide_eq_true (not_lt.1 h0)]; rfl
  have h6 := Phase.bind (g := fun p m2 => (report (g.enquiry !decide (e < 0)) g.master 1 p
      (.done [Msg.num (lev !decide (e < 0)).depth])).bind fun m3 =>
    if p = g.master then
      match choose o dt (st p) (if p = g.master then m0 else []) (if p = g.master then m1 else []) with
      | none => .fail
      | some c =>
        match discharge o c.1.smooth.dE c.1.delta (factor dt o.tau) c.1.smooth.Q m2 m3 with
        | none => .fail
        | some r => .done (({ c.1 with smooth := ⟨c.1.smooth.dE, r.2.2⟩ } : Stats), (decide (e < 0) : Bool), some (r.1, r.2.1))
    else .done (st p, decide (e < 0), none)) h3 (Phase.bind h4
      ((Phase.done g.procs fun p => if p = g.master then
        ((⟨sm, out.delta, (st p).accumulated, (st p).discharge⟩ : Stats), (!out.forward), some (out.Q, out.vel))
        else (st p, !out.forward, none)).congr (fun p _ => by
          by_cases hp : p = g.master
          · subst hp
            simp only [if_pos, hch, hf3]
            rw [hrev, hf2, ← hf4]
          · simp only [if_neg hp, hrev]) fun _ _ => rfl))
  refine h6.congr (fun p hp => ?_) fun _ _ => rfl
  have : (if p = g.master then [Msg.flag (decide (e < 0))] else if p ∈ g.procs then [Msg.flag (decide (e < 0))] else ([] : List M))
      = [Msg.flag (decide (e < 0))] := by
    by_cases hpm : p = g.master
    · rw [if_pos hpm]
    · rw [if_neg hpm, if_pos hp]
  rw [this]
  rfl

/-- The triangles of an inlet, as `Verif.ParInlet` has them. -/
def inletOps (w : (p : ℕ) → Part (N p)) (i : Bool) : ParInlet.InletOps ℝ N := fun p =>
  ⟨(w p).tri i, fun _ => .val 0, none, none, false, 0, 0, 0⟩

theorem area_phase {g : Group} (hg : Fits g) (i : Bool) (w : (p : ℕ) → Part (N p)) :
    ∃ r, Phase (g.inletProcs i) (fun p => areaP g i p (w p)) r ∧
      r (g.inletMaster i) = ParInlet.globalArea (fun p => (w p).dom) (inletOps w i) (g.inletMaster i) (g.inletProcs i) :=
  ⟨_, total_phase (hg.inletMaster i) (hg.inletNodup i) fun p => Inlet.area (w p).dom ((w p).tri i), if_pos rfl⟩

theorem average_phase {g : Group} (hg : Fits g) (i : Bool) (w : (p : ℕ) → Part (N p)) (a : (p : ℕ) → Fin (N p) → ℝ) :
    ∃ r, Phase (g.inletProcs i) (fun p => averageP g i p (w p) (a p)) r ∧
      r (g.inletMaster i) = ParInlet.globalAverage (fun p => (w p).dom) (inletOps w i) (g.inletMaster i) (g.inletProcs i) a := by
  obtain ⟨r1, h1, e1⟩ := area_phase hg i w
  have h2 := total_phase (hg.inletMaster i) (hg.inletNodup i) fun p => (((w p).tri i).map fun j => a p j * (w p).dom.area j).sum
  refine ⟨_, Phase.bind h1 (Phase.bind h2 (Phase.done _ _)), ?_⟩
  simp only [e1, if_pos]
  rfl

end Verif.ParStruct
