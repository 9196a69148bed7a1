import Verif.ParStruct.Props
import Verif.Ops.PropsStruct
import Mathlib.Tactic.FinCases

/-! # A culvert between two processors: a case that meets the hypotheses -/

namespace Verif.ParStruct

open Verif.Ops Verif.Culvert

set_option linter.unusedSectionVars false

variable {n : ℕ}

/-- **C108.** On one processor the call returns whenever the discharge routine does, with a discharge that is not negative. -/
theorem C108_serial (o : Opts) {dt : ℝ} (hdt : 0 < dt) (lev : Bool → Enq) {d0 : Dom ℝ n} (ha : ∀ t, 0 < d0.area t)
    {tri0 : Bool → Inlet n} (hne : ∀ i, tri0 i ≠ []) (hnd : ∀ i, (tri0 i).Nodup) (hdis : ∀ t ∈ tri0 false, t ∉ tri0 true) (st : Stats)
    (s0 : State ℝ n) {out : Out} {sm : Smooth} (h : routine o.kind dt o.tau (lev false) (lev true) st.delta st.smooth = some (out, sm))
    (hq : 0 ≤ out.Q) : ∃ st' s1, serial o dt lev d0 tri0 st s0 = some (st', s1) ∧ st'.smooth = sm ∧ st'.delta = out.delta := by
  obtain ⟨op', s', v, hcall, -⟩ := C31_moves d0 ⟨tri0 !out.forward, tri0 out.forward, (o.dir out.forward).1, (o.dir out.forward).2,
    o.useJet, o.zeroOut, o.oldMomentum, o.alwaysAdjust, st.accumulated, st.discharge⟩ s0 out.Q out.vel dt (hne _) (hne _) (hnd _) (hnd _)
    (by
      cases hf : out.forward
      · exact fun t h1 h2 => hdis t h2 h1
      · exact hdis) ha hq hdt
  refine ⟨⟨sm, out.delta, op'.accumulated, op'.discharge⟩, s', ?_, rfl, rfl⟩
  unfold serial
  rw [h]
  simp only
  rw [hcall]

/-- Two processors: the first end on processor 0, the second on both. -/
def twoProcs : Group where
  master := 0
  procs := [0, 1]
  inletMaster i := if i then 1 else 0
  inletProcs i := if i then [1, 0] else [0]
  enquiry i := if i then 1 else 0

theorem twoProcs_fits : Fits twoProcs where
  nodup := by decide
  procs p := by
    constructor
    · intro hp
      have hp' : p = 0 ∨ p = 1 := by simpa [twoProcs] using hp
      rcases hp' with rfl | rfl
      · exact ⟨false, by decide⟩
      · exact ⟨true, by decide⟩
    · rintro ⟨i, hi⟩
      cases i <;> simp [twoProcs] at hi ⊢ <;> omega
  master := by decide
  inletNodup i := by cases i <;> decide
  inletMaster i := by cases i <;> decide
  enquiry i := by cases i <;> decide

/-- A domain of three triangles. -/
def dom0 : Dom ℝ 3 := ⟨fun _ => 1, fun _ => true, fun _ => 0, fun _ => 0⟩

def tris0 (i : Bool) : Inlet 3 := if i then [1, 2] else [0]

noncomputable def flow0 : State ℝ 3 := ⟨fun t => 3 - t.val, fun _ => 0, fun _ => 0, fun t => t.val, fun _ => 1, 0, 0⟩

/-- Processor 0 has triangles 0 and 1, processor 1 has triangle 2. -/
def home0 (p : ℕ) (j : Fin 2) : Fin 3 := if p = 0 then ⟨j.val, by omega⟩ else 2

noncomputable def part0 (p : ℕ) : Part 2 where
  dom := ⟨fun _ => 1, fun _ => true, fun _ => 0, fun _ => 0⟩
  state := ⟨fun j => flow0.stage (home0 p j), fun _ => 0, fun _ => 0, fun j => flow0.xmom (home0 p j), fun _ => 1, 0, 0⟩
  tri i := if p = 0 then (if i then [1] else [0]) else if i then [0] else []
  stats := ⟨⟨0, 0⟩, 0, 0, 0⟩

/-- A structure with discharge 1 at a velocity of 1. -/
noncomputable def opts0 : Opts := ⟨⟨false, fun _ _ _ => some ⟨1, 1, 1, 1⟩, true⟩, 0, fun i => if i then (1, 0) else (-1, 0), true, false,
  false, false⟩

noncomputable def lev0 (i : Bool) : Enq := if i then ⟨1, 1, 0⟩ else ⟨3, 3, 0⟩

theorem part0_cut : Cut (N := fun _ => 2) twoProcs dom0 tris0 part0 home0 where
  nodup0 i := by cases i <;> decide
  nodup i p _ := by
    cases i <;> by_cases hp : p = 0 <;> simp [part0, hp]
  lands i p hp j hj := by
    cases i <;> by_cases h : p = 0 <;> simp [part0, h] at hj <;> subst hj <;> simp [home0, tris0, h]
  covers i t ht := by
    cases i
    · have : t = 0 := by simpa [tris0] using ht
      subst this
      exact ⟨0, by decide, 0, by simp [part0], rfl⟩
    · have : t = 1 ∨ t = 2 := by simpa [tris0] using ht
      rcases this with rfl | rfl
      · exact ⟨0, by decide, 1, by simp [part0], rfl⟩
      · exact ⟨1, by decide, 0, by simp [part0], rfl⟩
  once i k p hp q hq j hj l hl e := by
    have hp' : p = 0 ∨ p = 1 := by cases i <;> simp [twoProcs] at hp <;> omega
    have hq' : q = 0 ∨ q = 1 := by cases k <;> simp [twoProcs] at hq <;> omega
    rcases hp' with rfl | rfl <;> rcases hq' with rfl | rfl <;> cases i <;> cases k <;> simp [part0] at hj hl <;> subst hj <;> subst hl <;>
      first | exact ⟨rfl, rfl⟩ | exact absurd e (by decide)
  area i p _ j _ := rfl

/-- The hypotheses of `C108_call` can be met by a call which moves water. -/
example : ∃ st s1, serial opts0 1 lev0 dom0 tris0 (part0 twoProcs.master).stats flow0 = some (st, s1) ∧
    ∃ w' : ℕ → Part 2, Settles (before (N := fun _ => 2) twoProcs opts0 1 lev0 part0) (after (N := fun _ => 2) w') ∧
      Agrees (N := fun _ => 2) twoProcs s1 w' home0 ∧ (w' 0).stats = st ∧ st.smooth = ⟨2, 1⟩ := by
  have hr : routine opts0.kind 1 opts0.tau (lev0 false) (lev0 true) (part0 twoProcs.master).stats.delta (part0 twoProcs.master).stats.smooth
      = some (⟨1, 1, true, 2⟩, ⟨2, 1⟩) := by
    have hf : factor 1 0 = 1 := by norm_num [factor]
    have he : smoothEnergy 0 (3 - 1) 1 = 2 := by norm_num [smoothEnergy]
    have hd : smoothDischarge 2 0 1 1 1 = (1, 1, 1) := by norm_num [smoothDischarge, sgn]
    simp only [routine, opts0, lev0, part0, Enq.total, Enq.specific, if_true, Bool.false_eq_true, if_false, zero_add, hf, he]
    norm_num [hd]
  obtain ⟨st, s1, h1, h2, -⟩ := C108_serial opts0 (by norm_num : (0 : ℝ) < 1) lev0 (d0 := dom0) (fun _ => by norm_num [dom0])
    (tri0 := tris0) (fun i => by cases i <;> decide) part0_cut.nodup0 (by decide) (part0 twoProcs.master).stats flow0 hr (by norm_num)
  obtain ⟨w', h3, h4, h5, -⟩ := C108_call (N := fun _ => 2) twoProcs_fits opts0 rfl 1 lev0 (d0 := dom0) (fun _ => by norm_num [dom0])
    (tri0 := tris0) (fun i => by cases i <;> decide) part0_cut (s0 := flow0) (fun i p hp j hj => ⟨rfl, rfl, rfl, rfl⟩) h1
  exact ⟨st, s1, h1, w', h3, h4, h5, h2⟩

/-- `Settles` excludes getting stuck: two processors which both wait for each other do not settle. -/
example (f : Net Unit Unit) (hf : Finished f) : ¬ Settles ⟨fun p => if p = 0 then .recv 1 fun v => .send 1 v (.done ()) else if p = 1 then
    .recv 0 fun v => .send 0 v (.done ()) else .done (), fun _ => []⟩ f := by
  have hno : ∀ p q v k, (if p = 0 then (.recv 1 fun v => .send 1 v (.done ()) : Prog Unit Unit) else if p = 1 then
      .recv 0 fun v => .send 0 v (.done ()) else .done ()) ≠ .send q v k := by
    intro p q v k
    split_ifs <;> simp
  rintro ⟨b, h⟩
  obtain ⟨-, -, h1⟩ := h _ _ (.refl _)
  have hst : ∀ u a, ¬ Step u (⟨fun p => if p = 0 then .recv 1 fun v => .send 1 v (.done ()) else if p = 1 then
      .recv 0 fun v => .send 0 v (.done ()) else .done (), fun _ => []⟩ : Net Unit Unit) a := by
    intro u a hs
    cases hs with
    | meet hp => exact hno _ _ _ _ hp
    | take _ hc => exact absurd hc (by simp)
  have := h1 hst
  subst this
  obtain ⟨x, hx⟩ := hf.1 0
  exact absurd hx (by simp)

end Verif.ParStruct
