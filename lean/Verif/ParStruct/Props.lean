import Verif.ParStruct.LemmasCall

/-! # Culverts whose ends lie on several processors: theorems -/

namespace Verif.ParStruct

open Verif.Ops Verif.Culvert

set_option linter.unusedSectionVars false

variable {N : ℕ → ℕ} {n : ℕ}

theorem ite_ok {ε α : Type} {c : Prop} [Decidable c] {a x : α} {e : ε} (h : (if c then Except.ok a else .error e) = Except.ok x) : a = x := by
  by_cases hc : c
  · rw [if_pos hc] at h
    exact Except.ok.inj h
  · rw [if_neg hc] at h
    exact absurd h (by simp)

/-- **C108.** A culvert whose ends lie on several processors does what it does on one processor, however fast the processors are and
whichever messages the system stores: no execution gets stuck or goes on for ever, no message is left over, the flow in both inlets and
what the master keeps are those of the call on one processor, and nothing else is changed. Exceptions on one processor are outside. -/
theorem C108_call {g : Group} (hg : Fits g) (o : Opts) (hk : o.kind.closed = false) (dt : ℝ) (lev : Bool → Enq) {d0 : Dom ℝ n}
    (ha : ∀ t, 0 < d0.area t) {tri0 : Bool → Inlet n} (hne : ∀ i, tri0 i ≠ []) {w : (p : ℕ) → Part (N p)}
    {home : (p : ℕ) → Fin (N p) → Fin n} (hc : Cut g d0 tri0 w home) {s0 : State ℝ n} (hs : Agrees g s0 w home)
    {st : Stats} {s1 : State ℝ n} (h : serial o dt lev d0 tri0 (w g.master).stats s0 = some (st, s1)) :
    ∃ w' : (p : ℕ) → Part (N p), Settles (before g o dt lev w) (after w') ∧ Agrees g s1 w' home ∧ (w' g.master).stats = st ∧
      Confined g w w' := by
  unfold serial at h
  cases hr : routine o.kind dt o.tau (lev false) (lev true) (w g.master).stats.delta (w g.master).stats.smooth with
  | none => rw [hr] at h; exact absurd h (by simp)
  | some v =>
    obtain ⟨out, sm⟩ := v
    rw [hr] at h
    simp only at h
    set rev := !out.forward with hrev
    have hfwd : out.forward = !rev := by rw [hrev, Bool.not_not]
    rw [hfwd] at h
    -- the master's numbers
    set v : Inflow := ⟨Inlet.averageDepth d0 s0 (tri0 rev), Inlet.average d0 (tri0 rev) s0.xmom, Inlet.average d0 (tri0 rev) s0.ymom,
      Inlet.area d0 (tri0 rev)⟩ with hv
    set dr := drawn o dt out.Q v with hdr
    set w1 : (p : ℕ) → Part (N p) := fun p => wrote g rev dr.1 dr.2.1 dr.2.2.1 p (w p) with hw1
    set t1 : State ℝ n := setInlet s0 (tri0 rev) dr.1 dr.2.1 dr.2.2.1 with ht1
    have hc1 : Cut g d0 tri0 w1 home := hc.wrote rev dr.1 dr.2.1 dr.2.2.1
    have hs1 : Agrees g t1 w1 home := hs.wrote hc rev dr.1 dr.2.1 dr.2.2.1
    set stm : Stats := ⟨sm, out.delta, (w g.master).stats.accumulated, (w g.master).stats.discharge⟩ with hstm
    set B : List M := [Msg.num (Inlet.area d0 (tri0 !rev)), .num (Inlet.averageDepth d0 t1 (tri0 !rev)), .vec (o.dir !rev).1 (o.dir !rev).2,
        .num (Inlet.average d0 (tri0 !rev) t1.xmom), .num (Inlet.average d0 (tri0 !rev) t1.ymom)] with hB
    obtain ⟨f, hf⟩ : ∃ f, filled o dt out.Q out.vel v stm B = some f := ⟨_, rfl⟩
    set w2 : (p : ℕ) → Part (N p) := fun p => wrote g (!rev) f.1.1 f.1.2.1 f.1.2.2 p (w1 p) with hw2
    -- the phases
    obtain ⟨ra, hpa, ea⟩ := inflow_phase hg ha hne hc hs rev
    obtain ⟨rb, hpb, eb⟩ := outflow_phase hg ha hne hc1 hs1 o (!rev)
    set A : List M := [Msg.num (Inlet.averageDepth d0 s0 (tri0 rev)), .num (Inlet.average d0 (tri0 rev) s0.stage),
      .num (Inlet.average d0 (tri0 rev) s0.xmom), .num (Inlet.average d0 (tri0 rev) s0.ymom), .num (Inlet.area d0 (tri0 rev))] with hA
    have hread : Inflow.read A = some v := rfl
    have p1 : Phase g.procs (fun p => routineP g o dt lev p (w p).stats)
        (fun p => (if p = g.master then stm else (w p).stats, rev, if p = g.master then some (out.Q, out.vel) else none)) :=
      (routine_phase hg o hk dt lev (fun p => (w p).stats) hr).congr (fun _ _ => rfl) fun p _ => by
        by_cases hp : p = g.master
        · subst hp
          simp only [if_pos]
          rfl
        · simp only [if_neg hp]
          rfl
    have p3 := report_phase (hg.sub _ _ (hg.inletMaster rev)) hg.master (fun p => Prog.done (ra p)) (vs := A) (by rw [ea]) (n := 5) rfl
    have p4 := announce_phase (V := M) hg.master (hg.sub rev) (hg.inletNodup rev)
      (fun p => match (if p = g.master then some (out.Q, out.vel) else none), Inflow.read (if p = g.master then A else []) with
        | some qv, some v => let d := drawn o dt qv.1 v; .done [.num d.1, .num d.2.1, .num d.2.2.1]
        | _, _ => .fail) (vs := [Msg.num dr.1, .num dr.2.1, .num dr.2.2.1]) (by simp only [if_pos, hread]; rfl) (n := 3) rfl
    have p6 := report_phase (hg.sub _ _ (hg.inletMaster !rev)) hg.master (fun p => Prog.done (rb p)) (vs := B) (by rw [eb]) (n := 5) rfl
    have p7 := announce_phase (V := M) hg.master (hg.sub !rev) (hg.inletNodup !rev)
      (fun p => match (if p = g.master then some (out.Q, out.vel) else none), Inflow.read (if p = g.master then A else []) with
        | some qv, some v =>
          match filled o dt qv.1 qv.2 v (if p = g.master then stm else (w p).stats) (if p = g.master then B else []) with
          | some f => .done [.num f.1.1, .num f.1.2.1, .num f.1.2.2]
          | none => .fail
        | _, _ => .fail) (vs := [Msg.num f.1.1, .num f.1.2.1, .num f.1.2.2]) (by simp only [if_pos, hread, hf]) (n := 3) rfl
    set w' : (p : ℕ) → Part (N p) := fun p => if p = g.master then { w2 p with stats := f.2 } else w2 p with hw'
    have pcall : Phase g.procs (fun p => callP g o dt lev p (w p)) (fun p => (⟨p, w' p⟩ : Σ p, Part (N p))) := by
      unfold callP
      refine Phase.bind p1 (Phase.bind hpa (Phase.bind p3 (Phase.bind p4 ?_)))
      simp only [write_eq]
      refine Phase.bind hpb (Phase.bind p6 (Phase.bind p7 ?_))
      have e2 : ∀ p, write g (!rev) p (wrote g rev dr.1 dr.2.1 dr.2.2.1 p (w p)) (if p = g.master then [Msg.num f.1.1, .num f.1.2.1, .num f.1.2.2]
          else if p ∈ g.inletProcs !rev then [Msg.num f.1.1, .num f.1.2.1, .num f.1.2.2] else []) = some (w2 p) := fun p =>
        write_eq g (!rev) _ _ _ p g.master _
      simp only [e2]
      refine (Phase.done g.procs fun p => (⟨p, w' p⟩ : Σ p, Part (N p))).congr (fun p _ => ?_) fun _ _ => rfl
      by_cases hp : p = g.master
      · subst hp
        simp only [if_pos, hread, hf, hw']
      · simp only [if_neg hp, hw']
    obtain ⟨bound, hrun⟩ := pcall.run fun p => ⟨p, w p⟩
    have hidle : ∀ p, p ∉ g.procs → w' p = w p := by
      intro p hp
      have h0 : ∀ i, p ∉ g.inletProcs i := fun i hi => hp (hg.sub i p hi)
      have hpm : p ≠ g.master := fun e => hp (e ▸ hg.master)
      simp only [hw', hw2, hw1, if_neg hpm]
      unfold wrote
      rw [if_neg (h0 _), if_neg (h0 _)]
    have hstart : (quiet fun p => if p ∈ g.procs then callP g o dt lev p (w p) else .done (⟨p, w p⟩ : Σ p, Part (N p))) = before g o dt lev w :=
      rfl
    have hend : (quiet fun p => (.done (if p ∈ g.procs then (⟨p, w' p⟩ : Σ p, Part (N p)) else ⟨p, w p⟩) : Prog M _)) = after w' := by
      unfold quiet after
      congr 1
      funext p
      by_cases hp : p ∈ g.procs
      · rw [if_pos hp]
      · rw [if_neg hp, hidle p hp]
    rw [hstart, hend] at hrun
    -- the call on one processor
    have hser : st = f.2 ∧ s1 = setInlet t1 (tri0 !rev) f.1.1 f.1.2.1 f.1.2.2 := by
      obtain rfl := (Option.some.inj hf).symm
      cases hcall : StructOp.call d0 ⟨tri0 rev, tri0 !rev, (o.dir !rev).1, (o.dir !rev).2, o.useJet, o.zeroOut,
        o.oldMomentum, o.alwaysAdjust, (w g.master).stats.accumulated, (w g.master).stats.discharge⟩ s0 out.Q out.vel dt with
      | error e => rw [hcall] at h; exact absurd h (by simp)
      | ok v =>
        rw [hcall] at h
        unfold StructOp.call at hcall
        have hv := ite_ok hcall
        obtain ⟨rfl, rfl⟩ := Prod.mk.inj (Option.some.inj h)
        rw [← hv]
        exact ⟨rfl, rfl⟩
    have hfin : ∀ p, (w' p).state = (w2 p).state ∧ (w' p).dom = (w2 p).dom ∧ (w' p).tri = (w2 p).tri := by
      intro p
      by_cases hp : p = g.master
      · simp only [hw', if_pos hp, and_self]
      · simp only [hw', if_neg hp, and_self]
    refine ⟨w', ⟨bound, fun t m ht => ?_⟩, ?_, ?_, ?_⟩
    · obtain ⟨⟨u, h1, h2⟩, h3⟩ := hrun.every (f := after w') ⟨fun p => ⟨_, rfl⟩, fun _ => rfl⟩ ht
      exact ⟨by omega, ⟨u, h1⟩, h3⟩
    · have hs2 := hs1.wrote hc1 (!rev) f.1.1 f.1.2.1 f.1.2.2
      rw [hser.2]
      intro i p hp j hj
      rw [(hfin p).2.2] at hj
      rw [(hfin p).1]
      exact hs2 i p hp j hj
    · rw [hser.1]
      simp only [hw', if_pos]
    · constructor
      · intro p; rw [(hfin p).2.1, hw2, hw1]; simp only [wrote_dom]
      · intro p; rw [(hfin p).2.2, hw2, hw1]; simp only [wrote_tri]
      · intro p; rw [(hfin p).1, hw2, hw1]; simp only [(wrote_rest _ _ _ _ _ _ _).1]
      · intro p; rw [(hfin p).1, hw2, hw1]; simp only [(wrote_rest _ _ _ _ _ _ _).2.1]
      · intro p; rw [(hfin p).1, hw2, hw1]; simp only [(wrote_rest _ _ _ _ _ _ _).2.2.1, (wrote_rest _ _ _ _ _ _ _).2.2.2, and_self]
      · intro p j hj
        rw [(hfin p).1]
        obtain ⟨a1, a2, a3⟩ := wrote_out g rev dr.1 dr.2.1 dr.2.2.1 p (w p) j (hj rev)
        obtain ⟨b1, b2, b3⟩ := wrote_out g (!rev) f.1.1 f.1.2.1 f.1.2.2 p (w1 p) j fun hp => by
          rw [hw1]
          simp only [wrote_tri]
          exact hj _ hp
        exact ⟨b1.trans a1, b2.trans a2, b3.trans a3⟩
      · intro p hp
        simp only [hw', if_neg hp, hw2, hw1, wrote_stats]

end Verif.ParStruct
