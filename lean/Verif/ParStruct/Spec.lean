import Verif.ParStruct.Model
import Verif.ParStruct.Phase

/-! # Vocabulary for culverts whose ends lie on several processors -/

namespace Verif.ParStruct

open Verif.Ops Verif.Culvert

/-- Every execution from `start`, whichever processor is faster and whichever messages are stored on their way, has a bounded number
of steps, can always be continued to `final` without the system storing another message, and ends there and nowhere else. -/
def Settles {V α : Type} (start final : Net V α) : Prop :=
  ∃ bound, ∀ t m, Exec t start m → t ≤ bound ∧ (∃ w, Run w m final) ∧ ((∀ u a, ¬ Step u m a) → m = final)

/-- The group made by the factory: the operator is on the processors of either inlet; the masters and the enquiry points are on
processors of the inlet. -/
structure Fits (g : Group) : Prop where
  nodup : g.procs.Nodup
  procs : ∀ p, p ∈ g.procs ↔ ∃ i, p ∈ g.inletProcs i
  master : g.master ∈ g.procs
  inletNodup : ∀ i, (g.inletProcs i).Nodup
  inletMaster : ∀ i, g.inletMaster i ∈ g.inletProcs i
  enquiry : ∀ i, g.enquiry i ∈ g.inletProcs i

/-- The two inlets of a domain computed on one processor, cut up: the triangles of each inlet are held by its processors, each in one
place. `home` sends a triangle of a processor to the triangle it stands for. -/
structure Cut {N : ℕ → ℕ} {n : ℕ} (g : Group) (d0 : Dom ℝ n) (tri0 : Bool → Inlet n) (w : (p : ℕ) → Part (N p))
    (home : (p : ℕ) → Fin (N p) → Fin n) : Prop where
  nodup0 : ∀ i, (tri0 i).Nodup
  nodup : ∀ i, ∀ p ∈ g.inletProcs i, ((w p).tri i).Nodup
  lands : ∀ i, ∀ p ∈ g.inletProcs i, ∀ j ∈ (w p).tri i, home p j ∈ tri0 i
  covers : ∀ i, ∀ t ∈ tri0 i, ∃ p ∈ g.inletProcs i, ∃ j ∈ (w p).tri i, home p j = t
  once : ∀ i k, ∀ p ∈ g.inletProcs i, ∀ q ∈ g.inletProcs k, ∀ j ∈ (w p).tri i, ∀ l ∈ (w q).tri k, home p j = home q l →
    p = q ∧ j.val = l.val
  area : ∀ i, ∀ p ∈ g.inletProcs i, ∀ j ∈ (w p).tri i, (w p).dom.area j = d0.area (home p j)

/-- The flow in both inlets is the one computed on one processor. -/
def Agrees {N : ℕ → ℕ} {n : ℕ} (g : Group) (s0 : State ℝ n) (w : (p : ℕ) → Part (N p)) (home : (p : ℕ) → Fin (N p) → Fin n) : Prop :=
  ∀ i, ∀ p ∈ g.inletProcs i, ∀ j ∈ (w p).tri i, (w p).state.stage j = s0.stage (home p j) ∧
    (w p).state.elev j = s0.elev (home p j) ∧ (w p).state.xmom j = s0.xmom (home p j) ∧ (w p).state.ymom j = s0.ymom (home p j)

/-- Nothing but the flow in the inlets was changed, and on processors other than the master nothing of what the operator keeps. -/
structure Confined {N : ℕ → ℕ} (g : Group) (w w' : (p : ℕ) → Part (N p)) : Prop where
  dom : ∀ p, (w' p).dom = (w p).dom
  tri : ∀ p, (w' p).tri = (w p).tri
  elev : ∀ p, (w' p).state.elev = (w p).state.elev
  height : ∀ p, (w' p).state.height = (w p).state.height
  booked : ∀ p, (w' p).state.booked = (w p).state.booked ∧ (w' p).state.boundary = (w p).state.boundary
  flow : ∀ p j, (∀ i, p ∈ g.inletProcs i → j ∉ (w p).tri i) → (w' p).state.stage j = (w p).state.stage j ∧
    (w' p).state.xmom j = (w p).state.xmom j ∧ (w' p).state.ymom j = (w p).state.ymom j
  stats : ∀ p, p ≠ g.master → (w' p).stats = (w p).stats

/-- The same call on one processor: the discharge routine (`boyd_box_operator.py` 150-262) and the exchange of water
(`structure_operator.py` 213-376). -/
noncomputable def serial {n : ℕ} (o : Opts) (dt : ℝ) (lev : Bool → Enq) (d0 : Dom ℝ n) (tri0 : Bool → Inlet n) (st : Stats)
    (s0 : State ℝ n) : Option (Stats × State ℝ n) :=
  match routine o.kind dt o.tau (lev false) (lev true) st.delta st.smooth with
  | none => none
  | some (out, sm) =>
    match StructOp.call d0 ⟨tri0 !out.forward, tri0 out.forward, (o.dir out.forward).1, (o.dir out.forward).2, o.useJet, o.zeroOut,
        o.oldMomentum, o.alwaysAdjust, st.accumulated, st.discharge⟩ s0 out.Q out.vel dt with
    | .error _ => none
    | .ok (op, s) => some (⟨sm, out.delta, op.accumulated, op.discharge⟩, s)

/-- The processors before the call: those of the group have their programs, the others nothing to do. -/
noncomputable def before {N : ℕ → ℕ} (g : Group) (o : Opts) (dt : ℝ) (lev : Bool → Enq) (w : (p : ℕ) → Part (N p)) :
    Net M (Σ p, Part (N p)) :=
  ⟨fun p => if p ∈ g.procs then callP g o dt lev p (w p) else .done ⟨p, w p⟩, fun _ => []⟩

/-- All processors have finished and no message is left. -/
def after {N : ℕ → ℕ} (w : (p : ℕ) → Part (N p)) : Net M (Σ p, Part (N p)) := ⟨fun p => .done ⟨p, w p⟩, fun _ => []⟩

end Verif.ParStruct
