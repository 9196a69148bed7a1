import Verif.Ops.Model

/-!
# Model of inlets shared by several processors

Sources
* `/repo/anuga/parallel/parallel_inlet.py` 98-118 (`get_global_area`), 139-332 (global averages and volume), 407-517
  (`set_stages_evenly`);
* `/repo/anuga/parallel/parallel_inlet_operator.py` 100-205 (`__call__`, `update_Q`);
* `/repo/anuga/parallel/parallel_operator_factory.py` 50-131 (`Inlet_operator`), 876-990 (`allocate_inlet_procs`);
* `/repo/anuga/shallow_water/shallow_water_domain.py` 1715-1750 (`get_fractional_step_volume_integral`).

`anuga.Inlet_operator` is this factory, in runs with one processor too. The local getters and setters of `Parallel_Inlet` repeat those
of `Inlet` and are taken from `Verif.Ops`.

Simplifications
* exact ordered field, as in `Verif.Ops`;
* processors are natural numbers, processor `p` has `N p` triangles; all processors of one operator run one call together, a message
  received is the value computed by its sender (each processor sends in the order in which its master receives);
* `num.finfo(num.float32).max`, the start value of the search for the least stage, is a parameter `top`.
-/

namespace Verif.ParInlet

open Verif.Ops

variable {K : Type*} [Field K] [LinearOrder K] {N : ℕ → ℕ}

/-- The domains of all processors. -/
abbrev Doms (K : Type*) (N : ℕ → ℕ) := (p : ℕ) → Dom K (N p)

/-- The states of all processors. -/
abbrev States (K : Type*) (N : ℕ → ℕ) := (p : ℕ) → State K (N p)

/-- The operators of all processors. -/
abbrev InletOps (K : Type*) (N : ℕ → ℕ) := (p : ℕ) → InletOp K (N p)

/-- Exceptions: a failed assertion, a missing key `-1`, a division by zero, or one raised in `update_Q`. -/
inductive Err where
  | assertion
  | key
  | zeroDivision
  | discharge (e : Ops.Err)
  deriving DecidableEq, Repr

/-- The loop in which the master adds what it receives to its own number, `parallel_inlet.py` 108-114, 153-158, 300-306. -/
def gather (master : ℕ) (procs : List ℕ) (val : ℕ → K) : K :=
  procs.foldl (fun acc i => if i = master then acc else acc + val i) (val master)

/-- `get_global_area` at the master, `parallel_inlet.py` 98-118. -/
def globalArea (d : Doms K N) (ops : InletOps K N) (master : ℕ) (procs : List ℕ) : K :=
  gather master procs fun p => Inlet.area (d p) (ops p).tri

/-- `get_global_total_water_volume` at the master, `parallel_inlet.py` 291-310. -/
def globalVolume (d : Doms K N) (s : States K N) (ops : InletOps K N) (master : ℕ) (procs : List ℕ) : K :=
  gather master procs fun p => Inlet.volume (d p) (s p) (ops p).tri

/-- `get_global_average_stage`, `_elevation`, `_xmom`, `_ymom` at the master, `parallel_inlet.py` 139-166, 180-207, 222-245, 257-280. -/
def globalAverage (d : Doms K N) (ops : InletOps K N) (master : ℕ) (procs : List ℕ) (a : (p : ℕ) → Fin (N p) → K) : K :=
  let area := globalArea d ops master procs
  if area > 0 then gather master procs (fun p => ((ops p).tri.map fun i => a p i * (d p).area i).sum) / area else 0

/-- `get_global_average_depth` at the master, `parallel_inlet.py` 320-332. -/
def globalAverageDepth (d : Doms K N) (s : States K N) (ops : InletOps K N) (master : ℕ) (procs : List ℕ) : K :=
  let area := globalArea d ops master procs
  if area > 0 then globalVolume d s ops master procs / area else 0

/-! ## Level filling over several processors -/

/-- What the master holds of each processor: number of triangles, areas, stages and their order. -/
structure Gathered (K : Type*) where
  len : ℕ → ℕ
  area : (p : ℕ) → Fin (len p) → K
  stage : (p : ℕ) → Fin (len p) → K
  order : (p : ℕ) → Equiv.Perm (Fin (len p))

/-- `s_stages[i][s_stages_order[i][pos]]`, absent beyond the end. -/
def Gathered.next (g : Gathered K) (i pos : ℕ) : Option K :=
  if h : pos < g.len i then some (g.stage i (g.order i ⟨pos, h⟩)) else none

/-- `s_areas[i][s_stages_order[i][pos]]`. -/
def Gathered.nextArea (g : Gathered K) (i pos : ℕ) : K := if h : pos < g.len i then g.area i (g.order i ⟨pos, h⟩) else 0

/-- Body of the search for the least stage, `parallel_inlet.py` 465-471. -/
def pickStep (g : Gathered K) (pos : ℕ → ℕ) (acc : K × Option ℕ) (i : ℕ) : K × Option ℕ :=
  match g.next i (pos i) with
  | none => acc
  | some s => if s < acc.1 then (s, some i) else acc

/-- The search, `parallel_inlet.py` 462-471: least next stage and the processor it is on (`none` is `-1`). -/
def pick (g : Gathered K) (top : K) (procs : List ℕ) (pos : ℕ → ℕ) : K × Option ℕ :=
  procs.foldl (pickStep g pos) (top, none)

/-- Variables of the merge. -/
structure Fill (K : Type*) where
  pos : ℕ → ℕ
  volume : K
  area : K
  prev : K

/-- The merge after its first round, `parallel_inlet.py` 459-496, with the number of rounds left. -/
def fillLoop (g : Gathered K) (top : K) (procs : List ℕ) (volume : K) : ℕ → Fill K → Except Err (Fill K)
  | 0, f => .ok f
  | m + 1, f =>
    match pick g top procs f.pos with
    | (_, none) => .error .assertion
    | (cur, some i) =>
      let tmp := f.volume + f.area * (cur - f.prev)
      if tmp ≥ volume then .ok f
      else fillLoop g top procs volume m
        ⟨Function.update f.pos i (f.pos i + 1), tmp, f.area + g.nextArea i (f.pos i), cur⟩

/-- `total_stages`, `parallel_inlet.py` 426, 439. -/
def Gathered.total (g : Gathered K) (master : ℕ) (procs : List ℕ) : ℕ :=
  procs.foldl (fun acc i => if i ≠ master then acc + g.len i else acc) (g.len master)

/-- The merge, `parallel_inlet.py` 448-499: the places filled on each processor and the new stage. Without any triangle the last line
divides by zero. -/
def merge (g : Gathered K) (top : K) (master : ℕ) (procs : List ℕ) (volume : K) : Except Err ((ℕ → ℕ) × K) :=
  match g.total master procs with
  | 0 => .error .zeroDivision
  | m + 1 =>
    match pick g top procs fun _ => 0 with
    | (_, none) => .error .key
    | (cur, some i) =>
      match fillLoop g top procs volume m ⟨Function.update (fun _ => 0) i 1, 0, g.nextArea i 0, cur⟩ with
      | .error e => .error e
      | .ok f => .ok (f.pos, f.prev + (volume - f.volume) / f.area)

/-- What each processor sends, `parallel_inlet.py` 416-419, 441-445. -/
def collect (srt : Argsort K) (d : Doms K N) (s : States K N) (ops : InletOps K N) : Gathered K where
  len p := (ops p).tri.length
  area p j := (d p).area (ops p).tri[j]
  stage p j := (s p).stage (ops p).tri[j]
  order p := srt _ fun j : Fin (ops p).tri.length => (s p).stage (ops p).tri[j]

/-- `stages[stages_order[0:pos]] = new_stage`, `parallel_inlet.py` 508, 512. -/
def newStages (g : Gathered K) (p pos : ℕ) (new : K) : Fin (g.len p) → K :=
  fun j => if ((g.order p).symm j).val < pos then new else g.stage p j

/-- `set_stages_evenly`, `parallel_inlet.py` 407-517: every processor of `procs` writes its stages. -/
def setStagesEvenly (srt : Argsort K) (top : K) (d : Doms K N) (s : States K N) (ops : InletOps K N) (master : ℕ) (procs : List ℕ)
    (volume : K) : Except Err (States K N) :=
  let g := collect srt d s ops
  match merge g top master procs volume with
  | .error e => .error e
  | .ok (pos, new) =>
    .ok fun p => if p ∈ procs then
        { s p with stage := put (s p).stage (ops p).tri (List.ofFn (newStages g p (pos p) new)) }
      else s p

/-! ## The operator -/

/-- `update_Q` at the master. -/
def updateQ {n : ℕ} (op : InletOp K n) (t : K) : Except Err K :=
  match op.updateQ t with
  | .ok q => .ok q
  | .error e => .error (.discharge e)

/-- The operators after a call: `applied_Q`, `total_requested_volume` and `total_applied_volume` are kept by each processor,
`parallel_inlet_operator.py` 133, 142, 162, 178-185. -/
def booked (procs : List ℕ) (ops : InletOps K N) (appliedQ request applied : K) : InletOps K N := fun p =>
  if p ∈ procs then
    { ops p with appliedQ := appliedQ, totalRequested := (ops p).totalRequested + request, totalApplied := (ops p).totalApplied + applied }
  else ops p

/-- `Parallel_Inlet_operator.__call__`, `parallel_inlet_operator.py` 100-185, on all processors of `procs` together; time and timestep
are those of the master. The volumes are broadcast (123-128), so all processors take the same branch. -/
def call (srt : Argsort K) (top : K) (d : Doms K N) (ops : InletOps K N) (s : States K N) (master : ℕ) (procs : List ℕ) (t dt : K) :
    Except Err (InletOps K N × States K N) :=
  let current := globalVolume d s ops master procs
  let area := globalArea d ops master procs
  match updateQ (ops master) t with
  | .error e => .error e
  | .ok q1 =>
    match updateQ (ops master) (t + dt) with
    | .error e => .error e
    | .ok q2 =>
      let volume := 1 / 2 * (q1 + q2) * dt
      if current ≥ 0 then
        if volume ≥ 0 then
          match setStagesEvenly srt top d s ops master procs volume with
          | .error e => .error e
          | .ok s1 =>
            .ok (booked procs ops (volume / dt) volume volume,
              fun p => if p ∈ procs then (ops p).momenta (s p) { s1 p with booked := (s1 p).booked + volume } else s1 p)
        else if current + volume ≥ 0 then
          let depth := (current + volume) / area
          .ok (booked procs ops (volume / dt) volume volume,
            fun p => if p ∈ procs then
                (ops p).momenta (s p)
                  { Inlet.setDepths (s p) (ops p).tri depth with booked := (Inlet.setDepths (s p) (ops p).tri depth).booked + volume }
              else s p)
        else
          .ok (booked procs ops (-current / dt) volume (-current),
            fun p => if p ∈ procs then
                Inlet.setMoms
                  { Inlet.setDepths (s p) (ops p).tri 0 with booked := (Inlet.setDepths (s p) (ops p).tri 0).booked - current }
                  (ops p).tri 0 0
              else s p)
      else .error .assertion

/-- `get_fractional_step_volume_integral`, `shallow_water_domain.py` 1715-1750: processor 0 adds the numbers of all `np` processors and
sends the sum back. -/
def volumeIntegral (np : ℕ) (s : States K N) : K :=
  ((List.range np).tail.foldl (fun acc i => acc + (s i).booked) (s 0).booked)

/-! ## Which processors share an inlet -/

/-- Answer of one processor: `size` and `has_enq_point`. -/
structure Answer where
  size : ℕ
  enquiry : Bool

/-- `size` and `has_enq_point` on one processor, `parallel_operator_factory.py` 917-932: `tris` is the number of full triangles in the
region, `found` says whether an enquiry point was given and lies in a full triangle of this processor. -/
def answer (tris : ℕ) (found : Bool) : Answer := ⟨if found then tris + 1 else tris, found⟩

/-- State of the loop at the coordinating processor. -/
structure Alloc where
  procs : List ℕ
  maxSize : ℤ
  master : ℤ
  enquiry : ℤ
  deriving DecidableEq, Repr

/-- Body of the loop, `parallel_operator_factory.py` 946-961. -/
def allocStep (coord : ℕ) (ans : ℕ → Answer) (a : Alloc) (i : ℕ) : Except Err Alloc :=
  if i = coord then .ok a
  else if (ans i).size > 0 then
    let a1 : Alloc := { a with procs := a.procs ++ [i] }
    let a2 : Alloc := if (ans i).size > a.maxSize then { a1 with maxSize := (ans i).size, master := i } else a1
    if (ans i).enquiry then
      if a.enquiry = -1 then .ok { a2 with enquiry := i } else .error .assertion
    else .ok a2
  else .ok a

/-- `allocate_inlet_procs`, `parallel_operator_factory.py` 876-990, for the processors `procs` coordinated by `coord`; `wanted` says
whether an enquiry point was given. The result is sent to all of them (971-985); those with `size > 0` get an operator (987-990). -/
def allocate (coord : ℕ) (procs : List ℕ) (ans : ℕ → Answer) (wanted : Bool) : Except Err Alloc :=
  let start : Alloc :=
    if (ans coord).size > 0 then ⟨[coord], (ans coord).size, coord, if (ans coord).enquiry then coord else -1⟩ else ⟨[], -1, -1, -1⟩
  match procs.foldlM (allocStep coord ans) start with
  | .error e => .error e
  | .ok a =>
    if a.procs = [] ∨ a.master < 0 then .error .assertion
    else if wanted ∧ a.enquiry < 0 then .error .assertion
    else .ok a

end Verif.ParInlet
