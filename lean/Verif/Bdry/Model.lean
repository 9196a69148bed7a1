import Verif.Basic
import Mathlib.Data.List.Sort

/-!
# Boundary conditions and their binding to mesh segments

Model of

* `/repo/anuga/abstract_2d_finite_volumes/generic_boundary_conditions.py` 19-263 (`Boundary`,
  `Transmissive_boundary`, `Dirichlet_boundary`), 266-293 (`Compute_fluxes_boundary`),
  297-410 (`Time_boundary`), 419-516 (`Time_space_boundary`), 518-717 (`File_boundary`);
* `/repo/anuga/shallow_water/boundaries.py` (all boundary classes);
* `/repo/anuga/abstract_2d_finite_volumes/generic_domain.py` 937-1059 (`set_boundary`),
  2201-2212 (`conserved_values_to_evolved_values`), 2214-2248 (`update_boundary_old`),
  2288-2306 (`update_boundary`);
* `/repo/anuga/abstract_2d_finite_volumes/neighbour_mesh.py` 476-500 (`boundary_cells`,
  `boundary_edges`, `tag_boundary_cells`).

Simplifications: numbers live in an ordered field, `sqrt` and `g` are parameters; a boundary object
serves the domain it was created for (`self.domain` is the domain passed to `evaluate_segment`);
log messages are dropped; the values of user functions are already converted to a number (the
`float(value)` / `float(value[0])` fallback); time series (`file_function`) are functions of time
and point number.
-/

set_option linter.unusedSectionVars false

namespace Verif.Bdry

/-- The quantities of a shallow water domain that the boundary code touches. -/
inductive Q
  | stage | xmom | ymom | elev | height | xvel | yvel
  deriving DecidableEq

/-- What can go wrong while evaluating a boundary condition. -/
inductive Err
  /-- `Modeltime_too_early` -/
  | tooEarly
  /-- `Modeltime_too_late` -/
  | tooLate
  /-- an `AttributeError` -/
  | attribute
  /-- an `IndexError` or `KeyError` -/
  | index
  /-- a `TypeError` -/
  | type
  /-- "Boundary must return array of either conserved or evolved quantities" -/
  | badLength
  /-- "Method conserved_values_to_evolved_values must be overridden" -/
  | notOverridden
  /-- `set_boundary`: a tag of the map does not exist in the domain -/
  | unknownTag
  /-- `set_boundary`: a tag of the domain has not been bound -/
  | unboundTag
  /-- the evaluation does not terminate -/
  | diverges
  deriving DecidableEq

/-- What the boundary code reads and writes of a domain. -/
structure Dom (K : Type*) where
  /-- `conserved_quantities` -/
  conserved : List Q
  /-- `evolved_quantities` -/
  evolved : List Q
  /-- `boundary_cells` -/
  cells : ℕ → ℕ
  /-- `boundary_edges` -/
  edges : ℕ → ℕ
  /-- `quantities[q].edge_values[vol, edge]` -/
  edge : Q → ℕ → ℕ → K
  /-- `quantities[q].centroid_values[vol]` -/
  cent : Q → ℕ → K
  /-- `normals[vol, 2*edge : 2*edge+2]` -/
  normal : ℕ → ℕ → K × K
  /-- `get_edge_midpoint_coordinate(vol, edge)` -/
  mid : ℕ → ℕ → K × K
  /-- `get_time()` -/
  time : K
  /-- `centroid_transmissive_bc` -/
  centroidTransmissive : Bool
  /-- `quantities[q].boundary_values` -/
  bv : Q → ℕ → K

/-- Boundary condition objects. -/
inductive BC (K : Type*)
  /-- `Reflective_boundary`, `boundaries.py` 44 -/
  | reflective
  /-- `Transmissive_boundary`, `generic_boundary_conditions.py` 139 -/
  | transmissive
  /-- `Dirichlet_boundary`, `generic_boundary_conditions.py` 197 -/
  | dirichlet (v : List K)
  /-- `Compute_fluxes_boundary`, `generic_boundary_conditions.py` 266 -/
  | computeFluxes
  /-- `Time_boundary`, `generic_boundary_conditions.py` 297 -/
  | time (f : K → Except Err (List K)) (dflt : Option (List K))
  /-- `Time_space_boundary` without default, `generic_boundary_conditions.py` 419 -/
  | timeSpace (f : K → K → K → Except Err (List K))
  /-- `Time_space_boundary` with a default boundary -/
  | timeSpaceOr (f : K → K → K → Except Err (List K)) (d : BC K)
  /-- `Transmissive_momentum_set_stage_boundary`, `boundaries.py` 295 -/
  | setStage (f : K → Except Err K)
  /-- `Transmissive_n_momentum_zero_t_momentum_set_stage_boundary`, `boundaries.py` 384 -/
  | nMomentum (f : K → Except Err K) (dflt : Option K)
  /-- `Transmissive_stage_zero_momentum_boundary`, `boundaries.py` 520 -/
  | stageZero
  /-- `Time_stage_zero_momentum_boundary`, `boundaries.py` 553 -/
  | timeStageZero (f : K → Except Err K)
  /-- `Characteristic_stage_boundary`, `boundaries.py` 639 -/
  | characteristic (f : K → Except Err K)
  /-- `Dirichlet_discharge_boundary`, `boundaries.py` 850 -/
  | discharge (stage0 wh0 : K)
  /-- `File_boundary` without default, `generic_boundary_conditions.py` 518.  `index` is
  `boundary_indices`, `F` the file function. -/
  | file (index : ℕ → ℕ → Option ℕ) (F : K → ℕ → Except Err (List K))
  /-- `File_boundary` with a default boundary -/
  | fileOr (index : ℕ → ℕ → Option ℕ) (F : K → ℕ → Except Err (List K)) (d : BC K)
  /-- `Field_boundary`, `boundaries.py` 993: a `File_boundary` with an offset for stage -/
  | field (mean : K) (inner : BC K)
  /-- `Flather_external_stage_zero_velocity_boundary`, `boundaries.py` 1096 -/
  | flather (f : K → Except Err K)

section
variable {K : Type*} [Field K] [LinearOrder K] [IsStrictOrderedRing K]

/-- The constants of the boundary formulas: square root and gravity (`anuga/config.py` 45). -/
structure Par (K : Type*) where
  /-- `x**0.5` -/
  sqrt : K → K
  /-- `gravity` -/
  g : K

namespace Dom
variable (d : Dom K)

/-- `get_conserved_quantities(vol, edge=edge)`, `generic_domain.py` 508-537. -/
def conservedAt (vol e : ℕ) : List K := d.conserved.map fun q => d.edge q vol e

/-- `get_conserved_quantities(vol)`: centroid values. -/
def conservedCent (vol : ℕ) : List K := d.conserved.map fun q => d.cent q vol

/-- `get_evolved_quantities(vol, edge=edge)`, `generic_domain.py` 539-568. -/
def evolvedAt (vol e : ℕ) : List K := d.evolved.map fun q => d.edge q vol e

/-- `Q.boundary_values[ids] = v` with one value per listed id (numpy writes them in order). -/
def put (q : Q) (ids : List ℕ) (v : ℕ → K) : Dom K :=
  { d with bv := ids.foldl (fun b i => Function.update b q (Function.update (b q) i (v i))) d.bv }

/-- `conserved_values_to_evolved_values`, `generic_domain.py` 2201-2212 (shallow water domains do
not override it). -/
def toEvolved (q e : List K) : Except Err (List K) :=
  if q.length = e.length then .ok q else .error .notOverridden

/-- Length test of a boundary vector, `generic_boundary_conditions.py` 71-86 and
`generic_domain.py` 2231-2244. -/
def complete (vol e : ℕ) (q : List K) : Except Err (List K) :=
  if q.length = d.evolved.length then .ok q
  else if q.length = d.conserved.length then toEvolved q (d.evolvedAt vol e)
  else .error .badLength

/-- `for j, name in enumerate(evolved_quantities): Q.boundary_values[i] = q_evol[j]`. -/
def store (i : ℕ) (q : List K) : Dom K :=
  (d.evolved.zip q).foldl (fun d p => d.put p.1 [i] fun _ => p.2) d

end Dom

/-- `Boundary.get_boundary_values`, `generic_boundary_conditions.py` 98-131: the default is used
only when the model time is too late. -/
def boundaryValue {α : Type*} (f : K → Except Err α) (dflt : Option α) (t : K) : Except Err α :=
  match f t with
  | .ok v => .ok v
  | .error .tooLate =>
    match dflt with
    | some v => .ok v
    | none => .error .tooLate
  | .error e => .error e

/-- `while t > time[-1]: t -= time[-1]`, `boundaries.py` 355-362, stopped after `n` tests of the
condition (`none`: still running). -/
def rollN (T : K) : ℕ → K → Option K
  | 0, _ => none
  | n + 1, t => if T < t then rollN T n (t - T) else some t

open Classical in
/-- The function used by `Transmissive_momentum_set_stage_boundary.evaluate` when the user function
has a `time` attribute ending at `T`, `boundaries.py` 355-364: model time is rolled over first. -/
noncomputable def rolled {α : Type*} (T : K) (f : K → Except Err α) (t : K) : Except Err α :=
  if h : ∃ n t', rollN T n t = some t' then f h.choose_spec.choose else .error .diverges

/-- `rotate(q, normal, direction)`, `sw_domain_orig.c` 37-58. -/
def rotate (q1 q2 n1 n2 : K) : K × K := (n1 * q1 + n2 * q2, -n2 * q1 + n1 * q2)

/-- Flather formulas for one edge, `boundaries.py` 1170-1236 (`evaluate`). -/
def flatherPoint (p : Par K) (n : K × K) (bed out q0 q1 q2 : K) : K × K × K :=
  let depth := max (q0 - bed) 0
  if depth = 0 then (out, 0, 0)
  else
    let s := p.sqrt (p.g / depth)
    let ndotq := n.1 * q1 + n.2 * q2
    let w1 := 0 - s * out
    let w2 := if ndotq > 0 then (n.2 * q1 - n.1 * q2) / depth else 0
    let w3 := ndotq / depth + s * q0
    let qperp := (w3 + w1) / 2 * depth
    let qpar := w2 * depth
    ((w3 - w1) / (2 * s), qperp * n.1 + qpar * n.2, qperp * n.2 - qpar * n.1)

/-- Stage offset of `Field_boundary.evaluate`, `boundaries.py` 1086-1089: `mean_stage` is added to
every entry whose conserved quantity is stage. -/
def addMean (mean : K) : List Q → List K → List K
  | c :: cs, x :: xs => (if c = .stage then x + mean else x) :: addMean mean cs xs
  | _, xs => xs

/-- `B.evaluate(vol_id, edge_id)` for every class. -/
def evaluate (p : Par K) (d : Dom K) : BC K → ℕ → ℕ → Except Err (List K)
  -- `boundaries.py` 85-104
  | .reflective, v, e =>
    let n := d.normal v e
    let r := rotate (d.edge .xmom v e) (d.edge .ymom v e) n.1 n.2
    let q := rotate (-r.1) r.2 n.1 (-n.2)
    .ok [d.edge .stage v e, q.1, q.2]
  -- `generic_boundary_conditions.py` 158-169
  | .transmissive, v, e =>
    .ok (if d.centroidTransmissive then d.conservedCent v else d.conservedAt v e)
  -- `generic_boundary_conditions.py` 218-219
  | .dirichlet q, _, _ => .ok q
  -- `generic_boundary_conditions.py` 283-286: returns None, whose `len` cannot be taken
  | .computeFluxes, _, _ => .error .type
  -- `generic_boundary_conditions.py` 365-367
  | .time f dflt, _, _ => boundaryValue f dflt d.time
  -- `generic_boundary_conditions.py` 480-516
  | .timeSpace f, v, e => f d.time (d.mid v e).1 (d.mid v e).2
  | .timeSpaceOr f b, v, e =>
    match f d.time (d.mid v e).1 (d.mid v e).2 with
    | .ok q => .ok q
    | .error .tooLate => evaluate p d b v e
    | .error x => .error x
  -- `boundaries.py` 344-372
  | .setStage f, v, e => (f d.time).map fun x => (d.conservedAt v e).set 0 x
  -- `boundaries.py` 434-474
  | .nMomentum f dflt, v, e =>
    let n := d.normal v e
    let q := d.conservedAt v e
    (boundaryValue f dflt d.time).map fun x =>
      let ndotq := n.1 * q.getD 1 0 + n.2 * q.getD 2 0
      ((q.set 0 x).set 1 (n.1 * ndotq)).set 2 (n.2 * ndotq)
  -- `boundaries.py` 543-549
  | .stageZero, v, e => .ok (((d.conservedAt v e).set 1 0).set 2 0)
  -- `boundaries.py` 604, 611-613: the function was stored under another name
  | .timeStageZero _, _, _ => .error .attribute
  -- `boundaries.py` 692-709: `self.conserved_quantities` is never set
  | .characteristic f, _, _ =>
    match f d.time with
    | .ok _ => .error .attribute
    | .error x => .error x
  -- `boundaries.py` 886-891
  | .discharge s w, v, e =>
    let n := d.normal v e
    .ok [s, -w * n.1, -w * n.2]
  -- `generic_boundary_conditions.py` 649-716
  | .file index F, v, e =>
    match index v e with
    | none => .error .index
    | some i => F d.time i
  | .fileOr index F b, v, e =>
    match index v e with
    | none => .error .index
    | some i =>
      match F d.time i with
      | .ok q => .ok q
      | .error .tooLate => evaluate p d b v e
      | .error x => .error x
  -- `boundaries.py` 1076-1090
  | .field mean b, v, e => (evaluate p d b v e).map (addMean mean d.conserved)
  -- `boundaries.py` 1166-1239
  | .flather f, v, e =>
    let q := d.conservedAt v e
    (f d.time).map fun out =>
      let r := flatherPoint p (d.normal v e) (d.cent .elev v) out (q.getD 0 0) (q.getD 1 0)
        (q.getD 2 0)
      ((q.set 0 r.1).set 1 r.2.1).set 2 r.2.2

/-- `Boundary.evaluate_segment`, `generic_boundary_conditions.py` 39-90: the loop used by every
class without a vectorised version. -/
def genericSegment (p : Par K) (B : BC K) (ids : List ℕ) (d : Dom K) : Except Err (Dom K) :=
  ids.foldlM (fun d i => do
    let q ← evaluate p d B (d.cells i) (d.edges i)
    let q' ← d.complete (d.cells i) (d.edges i) q
    return d.store i q') d

/-- Copy interior edge values of `q` to the boundary array,
`Q.boundary_values[ids] = Q.edge_values[vol_ids, edge_ids]`. -/
def Dom.copyEdge (d : Dom K) (ids : List ℕ) (q : Q) : Dom K :=
  d.put q ids fun i => d.edge q (d.cells i) (d.edges i)

/-- Write the `j`-th entry of a vector to the `j`-th listed quantity, raising `IndexError` when the
vector is too short, `generic_boundary_conditions.py` 258-263 and 408-410. -/
def Dom.putVector (ids : List ℕ) : List Q → List K → Dom K → Except Err (Dom K)
  | [], _, d => .ok d
  | _ :: _, [], _ => .error .index
  | q :: qs, x :: xs, d => putVector ids qs xs (d.put q ids fun _ => x)

/-- `Dirichlet_boundary.evaluate_segment`, `generic_boundary_conditions.py` 221-263, shared by
`Time_boundary` (370-410). -/
def vectorSegment (v : List K) (ids : List ℕ) (d : Dom K) : Except Err (Dom K) :=
  if v.length = d.evolved.length then Dom.putVector ids d.evolved v d
  else Dom.putVector ids d.conserved v (d.evolved.foldl (fun d q => d.copyEdge ids q) d)

/-- `Reflective_boundary.evaluate_segment`, `boundaries.py` 235-288 (the last of three
definitions). -/
def reflectiveSegment (ids : List ℕ) (d : Dom K) : Dom K :=
  let n1 := fun i => (d.normal (d.cells i) (d.edges i)).1
  let n2 := fun i => (d.normal (d.cells i) (d.edges i)).2
  let at' := fun q i => d.edge q (d.cells i) (d.edges i)
  let d := ((d.copyEdge ids .stage).copyEdge ids .elev).copyEdge ids .height
  let r1 := fun i => -(at' .xmom i) * n1 i - at' .ymom i * n2 i
  let r2 := fun i => -(at' .xmom i) * n2 i + at' .ymom i * n1 i
  let d := d.put .xmom ids fun i => n1 i * r1 i - n2 i * r2 i
  let d := d.put .ymom ids fun i => n2 i * r1 i + n1 i * r2 i
  let s1 := fun i => at' .xvel i * n1 i + at' .yvel i * n2 i
  let s2 := fun i => at' .xvel i * n2 i - at' .yvel i * n1 i
  let d := d.put .xvel ids fun i => n1 i * s1 i - n2 i * s2 i
  d.put .yvel ids fun i => n2 i * s1 i + n1 i * s2 i

/-- `Transmissive_boundary.evaluate_segment`, `generic_boundary_conditions.py` 173-193. -/
def transmissiveSegment (ids : List ℕ) (d : Dom K) : Dom K :=
  if d.centroidTransmissive then
    d.evolved.foldl (fun d q => d.put q ids fun i => d.cent q (d.cells i)) d
  else d.evolved.foldl (fun d q => d.copyEdge ids q) d

/-- `Transmissive_n_momentum_zero_t_momentum_set_stage_boundary.evaluate_segment`,
`boundaries.py` 477-517; `x` is the value of the stage function. -/
def nMomentumSegment (x : K) (ids : List ℕ) (d : Dom K) : Dom K :=
  let n1 := fun i => (d.normal (d.cells i) (d.edges i)).1
  let n2 := fun i => (d.normal (d.cells i) (d.edges i)).2
  let ndotq := fun i => n1 i * d.edge .xmom (d.cells i) (d.edges i) +
    n2 i * d.edge .ymom (d.cells i) (d.edges i)
  let d := d.put .stage ids fun _ => x
  let d := d.put .xmom ids fun i => ndotq i * n1 i
  d.put .ymom ids fun i => ndotq i * n2 i

/-- `Characteristic_stage_boundary.evaluate_segment`, `boundaries.py` 757-848; `out` is the outside
stage. -/
def characteristicSegment (p : Par K) (out : K) (ids : List ℕ) (d : Dom K) : Dom K :=
  let n1 := fun i => (d.normal (d.cells i) (d.edges i)).1
  let n2 := fun i => (d.normal (d.cells i) (d.edges i)).2
  let d := (((d.copyEdge ids .stage).copyEdge ids .xmom).copyEdge ids .ymom).copyEdge ids .elev
  let b := d.bv
  let hIn := fun i => max (b .stage i - b .elev i) 0
  let uhIn := fun i => n1 i * b .xmom i + n2 i * b .ymom i
  let vhIn := fun i => n2 i * b .xmom i - n1 i * b .ymom i
  let uIn := fun i => if hIn i > 0 then uhIn i / hIn i else 0
  let hOut := fun i => max (out - b .elev i) 0
  let sIn := fun i => p.sqrt (hIn i)
  let sOut := fun i => p.sqrt (hOut i)
  let hm := fun i => (1 / 2 * (sIn i + sOut i) + uIn i / 4 / p.sqrt p.g) ^ 2
  let um := fun i => 1 / 2 * uIn i + p.sqrt p.g * (sIn i - sOut i)
  let uhm := fun i => hm i * um i
  let vhm := fun i => if uhIn i > 0 then vhIn i else 0
  let dry := fun i => decide (hIn i = 0 ∨ hOut i = 0)
  let d := d.put .stage ids fun i => if dry i then out else hm i + b .elev i
  let d := d.put .xmom ids fun i => if dry i then 0 else uhm i * n1 i + vhm i * n2 i
  d.put .ymom ids fun i => if dry i then 0 else uhm i * n2 i - vhm i * n1 i

/-- `Flather_external_stage_zero_velocity_boundary.evaluate_segment`, `boundaries.py` 1242-1327;
`out` is the outside stage. -/
def flatherSegment (p : Par K) (out : K) (ids : List ℕ) (d : Dom K) : Dom K :=
  let n1 := fun i => (d.normal (d.cells i) (d.edges i)).1
  let n2 := fun i => (d.normal (d.cells i) (d.edges i)).2
  let bed := fun i => d.cent .elev (d.cells i)
  let d := (((d.copyEdge ids .stage).copyEdge ids .xmom).copyEdge ids .ymom).copyEdge ids .elev
  let b := d.bv
  let depth := fun i => max (b .stage i - bed i) 0
  let q0dry := fun i => if bed i ≤ out then out else b .elev i
  let s := fun i => p.sqrt (p.g / depth i)
  let ndotq := fun i => n1 i * b .xmom i + n2 i * b .ymom i
  let w1 := fun i => 0 - s i * out
  let w2 := fun i => if ndotq i > 0 then (n2 i * b .xmom i - n1 i * b .ymom i) / depth i else 0
  let w3 := fun i => ndotq i / depth i + s i * b .stage i
  let qperp := fun i => (w3 i + w1 i) / 2 * depth i
  let qpar := fun i => w2 i * depth i
  let dry := fun i => decide (depth i = 0 ∨ out > bed i)
  let d := d.put .stage ids fun i => if dry i then q0dry i else (w3 i - w1 i) / (2 * s i)
  let d := d.put .xmom ids fun i => if dry i then 0 else qperp i * n1 i + qpar i * n2 i
  d.put .ymom ids fun i => if dry i then 0 else qperp i * n2 i - qpar i * n1 i

/-- `B.evaluate_segment(domain, ids)` for every class. -/
def evaluateSegment (p : Par K) (B : BC K) (ids : List ℕ) (d : Dom K) : Except Err (Dom K) :=
  match B with
  | .reflective => .ok (reflectiveSegment ids d)
  | .transmissive => .ok (transmissiveSegment ids d)
  | .dirichlet v => vectorSegment v ids d
  -- `generic_boundary_conditions.py` 288-293
  | .computeFluxes => .ok d
  | .time f dflt => do
    let v ← boundaryValue f dflt d.time
    vectorSegment v ids d
  | .nMomentum f dflt => do
    let x ← boundaryValue f dflt d.time
    return nMomentumSegment x ids d
  -- `boundaries.py` 616-636: `get_boundary_values` reads the missing `self.function`
  | .timeStageZero _ => .error .attribute
  | .characteristic f => do
    let x ← f d.time
    return characteristicSegment p x ids d
  | .flather f => do
    let x ← f d.time
    return flatherSegment p x ids d
  | B => genericSegment p B ids d

end

/-! ## Binding conditions to segments -/

/-- Boundary tags; tag `0` stands for `'ghost'`. -/
abbrev Tag := ℕ

/-- A dictionary from tags, in insertion order. -/
abbrev Dict (α : Type*) := List (Tag × α)

namespace Dict
variable {α : Type*}

/-- `m[k]` if present. -/
def get? (m : Dict α) (k : Tag) : Option α := (m.find? fun e => e.1 == k).map Prod.snd

/-- `m[k] = v`. -/
def set (m : Dict α) (k : Tag) (v : α) : Dict α :=
  if m.any (fun e => e.1 == k) then m.map fun e => if e.1 = k then (k, v) else e
  else m ++ [(k, v)]

/-- `for key in list(n.keys()): m[key] = n[key]`, `generic_domain.py` 1011-1012. -/
def update (m n : Dict α) : Dict α := n.foldl (fun m e => m.set e.1 e.2) m

end Dict

/-- The dictionaries of the Python program, by reference.  A value `none` is Python's `None`. -/
abbrev Heap (α : Type*) := ℕ → Dict (Option α)

/-- The part of a domain that `set_boundary` works on. -/
structure Binder (α : Type*) where
  /-- `self.boundary`: `(vol_id, edge_id) ↦ tag` -/
  boundary : List ((ℕ × ℕ) × Tag)
  /-- `self.parallel` -/
  parallel : Bool
  /-- `self.boundary_map`: a reference to a dictionary, or `None` -/
  map : Option ℕ
  /-- `self.boundary_objects` -/
  objects : List ((ℕ × ℕ) × α)
  /-- `self.boundary_flux_type` -/
  fluxType : List ℕ

variable {α : Type*}

/-- Order of the keys of the boundary dictionary (Python tuples). -/
def keyLe (a b : (ℕ × ℕ) × Tag) : Prop := a.1.1 < b.1.1 ∨ a.1.1 = b.1.1 ∧ a.1.2 ≤ b.1.2

instance : DecidableRel keyLe := fun a b => by unfold keyLe; infer_instance

/-- Boundary segments in the order of their sorted keys. -/
def Binder.segments (d : Binder α) : List ((ℕ × ℕ) × Tag) := d.boundary.insertionSort keyLe

/-- The check of the given tags, `generic_domain.py` 990-999. -/
def Binder.tagsAllowed (d : Binder α) (m : Dict (Option α)) : Bool :=
  d.parallel || m.all fun e => e.1 == 0 || d.boundary.any fun s => s.2 == e.1

/-- The loop building `boundary_objects`, `generic_domain.py` 1019-1043: the list built so far, and
whether a tag was missing. -/
def bindLoop (m : Dict (Option α)) :
    List ((ℕ × ℕ) × Tag) → List ((ℕ × ℕ) × α) → List ((ℕ × ℕ) × α) × Option Err
  | [], acc => (acc, none)
  | (s, tag) :: rest, acc =>
    match m.get? tag with
    | some (some B) => bindLoop m rest (acc ++ [(s, B)])
    | some none => bindLoop m rest acc
    | none => (acc, some .unboundTag)

/-- `boundary_flux_type`, `generic_domain.py` 1048-1058: `1` at position `k` when the `k`-th entry of
`boundary_objects` is a `Compute_fluxes_boundary`. -/
def fluxTypes (isFlux : α → Bool) (n : ℕ) (objs : List ((ℕ × ℕ) × α)) : List ℕ :=
  (List.range n).map fun k =>
    match objs[k]? with
    | some x => if isFlux x.2 then 1 else 0
    | none => 0

/-- `generic_domain.py` 1003-1012: the first call keeps the given dictionary itself, later calls
write into the kept one. -/
def storeMap (h : Heap α) (map : Option ℕ) (arg : ℕ) : Heap α × ℕ :=
  match map with
  | none => (h, arg)
  | some r => (Function.update h r ((h r).update (h arg)), r)

/-- `set_boundary(arg)`, `generic_domain.py` 937-1059; `isFlux` tells `Compute_fluxes_boundary`
objects.  Python keeps what was done before an exception, so the new heap and domain are returned
together with the error. -/
def setBoundary (isFlux : α → Bool) (h : Heap α) (d : Binder α) (arg : ℕ) :
    Heap α × Binder α × Option Err :=
  if d.tagsAllowed (h arg) then
    -- 1003-1012
    let (h, ref) := storeMap h d.map arg
    let d := { d with map := some ref }
    -- 1018-1043
    let (objs, err) := bindLoop (h ref) d.segments []
    let d := { d with objects := objs }
    match err with
    | some e => (h, d, some e)
    | none =>
      -- 1048-1058
      (h, { d with fluxType := fluxTypes isFlux d.boundary.length objs }, none)
  else (h, d, some .unknownTag)

/-- `get_boundary_tags`, `neighbour_mesh.py` 503-511. -/
def boundaryTags (b : List ((ℕ × ℕ) × Tag)) : List Tag := (b.map Prod.snd).dedup

/-- `tag_boundary_cells`, `neighbour_mesh.py` 486-500: for every tag the numbers of its boundary
segments in increasing order. -/
def tagCells (d : Binder α) : List (Tag × List ℕ) :=
  (boundaryTags d.boundary).map fun t =>
    (t, (d.segments.zipIdx.filter fun x => x.1.2 == t).map Prod.snd)

section
variable {K : Type*} [Field K] [LinearOrder K] [IsStrictOrderedRing K]

/-- `update_boundary`, `generic_domain.py` 2288-2306. -/
def updateBoundary (p : Par K) (m : Dict (Option (BC K))) :
    List (Tag × List ℕ) → Dom K → Except Err (Dom K)
  | [], d => .ok d
  | (t, ids) :: rest, d =>
    match m.get? t with
    | none => .error .index
    | some none => updateBoundary p m rest d
    | some (some B) =>
      match evaluateSegment p B ids d with
      | .ok d' => updateBoundary p m rest d'
      | .error e => .error e

/-- The arrays `boundary_cells` and `boundary_edges`, `neighbour_mesh.py` 476-484, belong to the
sorted segments. -/
def Dom.Indexes (d : Dom K) (b : Binder α) : Prop :=
  ∀ j s, b.segments[j]? = some s → d.cells j = s.1.1 ∧ d.edges j = s.1.2

end

/-! ## `Inflow_boundary` -/

section
variable {K : Type*} [Field K] [LinearOrder K] [IsStrictOrderedRing K]

/-- Data of an `Inflow_boundary`, `boundaries.py` 902-986: the tag and average momentum found at the
first evaluation are kept. -/
structure Inflow (K : Type*) where
  /-- `rate` in m³/s -/
  rate : K
  /-- `tag` and `average_momentum`, once set -/
  cached : Option (Tag × K)

/-- `Inflow_boundary.evaluate`, `boundaries.py` 929-985: new state of the object and the momentum
(the slope is the constant `0`, so the depth is always `1`). -/
def Inflow.evaluate (f : Inflow K) (boundary : List ((ℕ × ℕ) × Tag)) (length : ℕ → ℕ → K)
    (normal : ℕ → ℕ → K × K) (elev : ℕ → ℕ → K) (v e : ℕ) : Inflow K × Option (K × K × K) :=
  let f' : Option (Inflow K × K) := match f.cached with
    | some (_, m) => some (f, m)
    | none =>
      match (boundary.find? fun s => s.1 == (v, e)).map Prod.snd with
      | none => none
      | some tag =>
        let len := ((boundary.filter fun s => s.2 == tag).map fun s => length s.1.1 s.1.2).sum
        some ({ f with cached := some (tag, f.rate / len) }, f.rate / len)
  match f' with
  | none => (f, none)
  | some (f', m) => (f', some (elev v e + 1, m * -(normal v e).1, m * -(normal v e).2))

end

end Verif.Bdry
