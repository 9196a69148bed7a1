import Verif.ParStruct.Patterns
import Verif.ParInlet.Model
import Verif.Culvert.Model

/-!
# Model of culverts whose ends lie on several processors

Sources
* `/repo/anuga/parallel/parallel_structure_operator.py` 254-469 (`__call__`);
* `/repo/anuga/parallel/parallel_boyd_box_operator.py` 145-320 (`discharge_routine`);
* `/repo/anuga/parallel/parallel_inlet.py` 98-118, 139-166, 222-245, 257-280, 291-332 (sums and averages over the processors of an
  inlet), 382-399 (`set_depths`, `set_xmoms`, `set_ymoms`);
* `/repo/anuga/parallel/parallel_operator_factory.py` 142-285 (which processors have the operator).

Each processor has a program of its own, which sends and receives; `Verif.ParStruct.Net` says how programs run together.

Simplifications
* real numbers instead of floats; a message is a number, a truth value or a vector; anything else that arrives is an exception;
* levels at the enquiry points are parameters known to the processor which has the point;
* `velocity`, `outlet_depth`, `case` and the time mean of the discharge, which are only reported, are left out;
* one sum is computed before or after the area is gathered; this makes no difference to the messages.
-/

namespace Verif.ParStruct

open Verif.Ops Verif.Culvert

/-- Who takes part: the master of the structure and all its processors; for each end (`false` is the first) the master of the inlet,
its processors and the one which has the enquiry point. -/
structure Group where
  master : ℕ
  procs : List ℕ
  inletMaster : Bool → ℕ
  inletProcs : Bool → List ℕ
  enquiry : Bool → ℕ

/-- What the operator is made with, the same on all processors: discharge function, smoothing time, outward directions of the ends
(`parallel_structure_operator.py` 191, 227) and options. -/
structure Opts where
  kind : Kind
  tau : ℝ
  dir : Bool → ℝ × ℝ
  useJet : Bool
  zeroOut : Bool
  oldMomentum : Bool
  alwaysAdjust : Bool

/-- What an operator keeps: `smooth_delta_total_energy`, `smooth_Q`, `delta_total_energy`, `accumulated_flow`, `discharge`. -/
structure Stats where
  smooth : Smooth
  delta : ℝ
  accumulated : ℝ
  discharge : ℝ

/-- One processor: domain, flow, its triangles of the two inlets, what it keeps. -/
structure Part (n : ℕ) where
  dom : Dom ℝ n
  state : State ℝ n
  tri : Bool → Inlet n
  stats : Stats

abbrev M := Msg ℝ

/-! ## Levels and discharge -/

/-- `parallel_boyd_box_operator.py` 182-187: the energy difference, of what the master has of the two points. -/
noncomputable def energyDifference (o : Opts) : List M → List M → Option ℝ
  | [.num e0, .num s0], [.num e1, .num s1] => some (if o.kind.useVelocityHead then e0 - e1 else s0 - s1)
  | _, _ => none

/-- `parallel_boyd_box_operator.py` 260-318, at the master: discharge, barrel velocity and `smooth_Q` from the depth and specific
energy at the inflow and the depth at the outflow. `e` is `smooth_delta_total_energy`, `delta` is `delta_total_energy`. -/
noncomputable def discharge (o : Opts) (e delta ts sQ : ℝ) : List M → List M → Option (ℝ × ℝ × ℝ)
  | [.num depth, .num spec], [.num outDepth] =>
    if depth > 0.01 then
      if spec ≥ 0 then
        match o.kind.fn (if o.kind.useVelocityHead then spec else depth) delta outDepth with
        | none => none
        | some f =>
          let r := smoothDischarge e sQ f.Q f.area ts
          if r.2.2 > 10 then some (f.area * 10, 10, r.1) else some (r.2.1, r.2.2, r.1)
      else none
    else some (0, 0, sQ)
  | _, _ => none

/-- The master's choice of the inflow, 189-218: what it keeps and whether it orders a reversal. -/
noncomputable def choose (o : Opts) (dt : ℝ) (st : Stats) (m0 m1 : List M) : Option (Stats × Bool) :=
  match energyDifference o m0 m1 with
  | none => none
  | some dE =>
    let e := smoothEnergy st.smooth.dE dE (factor dt o.tau)
    some (⟨⟨e, st.smooth.Q⟩, if e < 0 then -e else e, st.accumulated, st.discharge⟩, decide (e < 0))

/-- `discharge_routine`, `parallel_boyd_box_operator.py` 145-320: `lev i` are the levels at enquiry point `i`, used by the processor
which has it. Returned are what is kept, whether the second end is the inflow, discharge and barrel velocity (at the master; the others
return `None`). -/
noncomputable def routineP (g : Group) (o : Opts) (dt : ℝ) (lev : Bool → Enq) (me : ℕ) (st : Stats) :
    Prog M (Stats × Bool × Option (ℝ × ℝ)) :=
  (report (g.enquiry false) g.master 2 me (.done [.num (lev false).total, .num (lev false).stage])).bind fun m0 =>
  (report (g.enquiry true) g.master 2 me (.done [.num (lev true).total, .num (lev true).stage])).bind fun m1 =>
  (announce g.master 1 g.procs me
    (match choose o dt st m0 m1 with
      | none => .fail
      | some c => .done [.flag c.2])).bind fun f =>
  match f with
  | [.flag rev] =>
    (report (g.enquiry rev) g.master 2 me (.done [.num (lev rev).depth, .num (lev rev).specific])).bind fun m2 =>
    (report (g.enquiry !rev) g.master 1 me (.done [.num (lev !rev).depth])).bind fun m3 =>
    if me = g.master then
      match choose o dt st m0 m1 with
      | none => .fail
      | some c =>
        match discharge o c.1.smooth.dE c.1.delta (factor dt o.tau) c.1.smooth.Q m2 m3 with
        | none => .fail
        | some r => .done ({ c.1 with smooth := ⟨c.1.smooth.dE, r.2.2⟩ }, rev, some (r.1, r.2.1))
    else .done (st, rev, none)
  | _ => .fail

/-! ## Averages over an inlet -/

/-- `get_global_area`, `parallel_inlet.py` 98-118. -/
noncomputable def areaP {n : ℕ} (g : Group) (i : Bool) (me : ℕ) (w : Part n) : Prog M ℝ :=
  total (g.inletMaster i) (g.inletProcs i) me (Inlet.area w.dom (w.tri i))

/-- `get_global_average_stage` and its like, 139-166, 222-245, 257-280, and `get_global_average_depth`, 291-332. -/
noncomputable def averageP {n : ℕ} (g : Group) (i : Bool) (me : ℕ) (w : Part n) (a : Fin n → ℝ) : Prog M ℝ :=
  (areaP g i me w).bind fun A =>
  (total (g.inletMaster i) (g.inletProcs i) me (((w.tri i).map fun j => a j * w.dom.area j).sum)).bind fun S =>
  .done (if A > 0 then S / A else 0)

/-- `get_depths`. -/
noncomputable def Part.depth {n : ℕ} (w : Part n) : Fin n → ℝ := fun j => w.state.stage j - w.state.elev j

/-- `parallel_structure_operator.py` 260-266: depth, stage, momentum and area of the inflow inlet. -/
noncomputable def inflowP {n : ℕ} (g : Group) (i : Bool) (me : ℕ) (w : Part n) : Prog M (List M) :=
  if me ∈ g.inletProcs i then
    (averageP g i me w w.depth).bind fun d =>
    (averageP g i me w w.state.stage).bind fun s =>
    (averageP g i me w w.state.xmom).bind fun x =>
    (averageP g i me w w.state.ymom).bind fun y =>
    (areaP g i me w).bind fun A =>
    .done [.num d, .num s, .num x, .num y, .num A]
  else .done []

/-- 369-375: area, depth, outward direction and momentum of the outflow inlet. -/
noncomputable def outflowP {n : ℕ} (g : Group) (o : Opts) (i : Bool) (me : ℕ) (w : Part n) : Prog M (List M) :=
  if me ∈ g.inletProcs i then
    (areaP g i me w).bind fun A =>
    (averageP g i me w w.depth).bind fun d =>
    (averageP g i me w w.state.xmom).bind fun x =>
    (averageP g i me w w.state.ymom).bind fun y =>
    .done [.num A, .num d, .vec (o.dir i).1 (o.dir i).2, .num x, .num y]
  else .done []

/-! ## The exchange of water -/

/-- Values at the inflow held by the master. -/
structure Inflow where
  depth : ℝ
  xmom : ℝ
  ymom : ℝ
  area : ℝ

/-- The values received at 269-282. -/
def Inflow.read : List M → Option Inflow
  | [.num d, .num _, .num x, .num y, .num A] => some ⟨d, x, y, A⟩
  | _ => none

/-- 288-348, at the master: new depth and momentum of the inflow inlet and `timestep_star`. -/
noncomputable def drawn (o : Opts) (dt q : ℝ) (v : Inflow) : ℝ × ℝ × ℝ × ℝ :=
  let dtQonD := if v.depth > 0 then dt * q / v.depth else 0
  let adjust := o.alwaysAdjust || decide (v.depth * v.area ≤ q * dt)
  let factor := 1 / (1 + dtQonD / v.area)
  let new := if adjust then v.depth * factor else v.depth - dt * q / v.area
  let dtStar := if adjust then (if v.depth > 0 then dt * new / v.depth else 0) else dt
  let f :=
    if o.oldMomentum then factor
    else if v.depth > 0 then
      if adjust then 1 / (1 + dtQonD * new / (v.depth * v.area)) else 1 / (1 + dt * q / (v.depth * v.area))
    else 0
  (new, v.xmom * f, v.ymom * f, dtStar)

/-- 392-452, at the master: new depth and momentum of the outflow inlet, and what it keeps. -/
noncomputable def filled (o : Opts) (dt q speed : ℝ) (v : Inflow) (st : Stats) : List M → Option ((ℝ × ℝ × ℝ) × Stats)
  | [.num A, .num d, .vec dx dy, .num x, .num y] =>
    let w := drawn o dt q v
    let xloss := (v.xmom - w.2.1) * v.area
    let yloss := (v.ymom - w.2.2.1) * v.area
    let extra := q * w.2.2.2 / A
    let new := d + extra
    some ((new,
      if o.useJet then speed * new * -dx else if o.zeroOut then 0 else x + xloss / A,
      if o.useJet then speed * new * -dy else if o.zeroOut then 0 else y + yloss / A),
      { st with accumulated := st.accumulated + extra * A, discharge := q * w.2.2.2 / dt })
  | _ => none

/-- 363-367 and 466-469: the processors of an inlet write the new depth and momentum. -/
noncomputable def write {n : ℕ} (g : Group) (i : Bool) (me : ℕ) (w : Part n) : List M → Option (Part n)
  | [.num d, .num x, .num y] =>
    some (if me ∈ g.inletProcs i then { w with state := Inlet.setMoms (Inlet.setDepths w.state (w.tri i) d) (w.tri i) x y } else w)
  | _ => if me ∈ g.inletProcs i then none else some w

/-- `__call__`, `parallel_structure_operator.py` 254-469. -/
noncomputable def callP {N : ℕ → ℕ} (g : Group) (o : Opts) (dt : ℝ) (lev : Bool → Enq) (me : ℕ) (w : Part (N me)) :
    Prog M (Σ p, Part (N p)) :=
  (routineP g o dt lev me w.stats).bind fun r =>
  (inflowP g r.2.1 me w).bind fun a =>
  (report (g.inletMaster r.2.1) g.master 5 me (.done a)).bind fun a =>
  (announce g.master 3 (g.inletProcs r.2.1) me
    (match r.2.2, Inflow.read a with
      | some qv, some v => let d := drawn o dt qv.1 v; .done [.num d.1, .num d.2.1, .num d.2.2.1]
      | _, _ => .fail)).bind fun new =>
  match write g r.2.1 me w new with
  | none => .fail
  | some w1 =>
    (outflowP g o (!r.2.1) me w1).bind fun b =>
    (report (g.inletMaster !r.2.1) g.master 5 me (.done b)).bind fun b =>
    (announce g.master 3 (g.inletProcs !r.2.1) me
      (match r.2.2, Inflow.read a with
        | some qv, some v =>
          match filled o dt qv.1 qv.2 v r.1 b with
          | some f => .done [.num f.1.1, .num f.1.2.1, .num f.1.2.2]
          | none => .fail
        | _, _ => .fail)).bind fun new =>
    match write g (!r.2.1) me w1 new with
    | none => .fail
    | some w2 =>
      if me = g.master then
        match r.2.2, Inflow.read a with
        | some qv, some v =>
          match filled o dt qv.1 qv.2 v r.1 b with
          | some f => .done ⟨me, { w2 with stats := f.2 }⟩
          | none => .fail
        | _, _ => .fail
      else .done ⟨me, w2⟩

end Verif.ParStruct
