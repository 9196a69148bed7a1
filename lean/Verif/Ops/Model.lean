import Verif.Basic
import Mathlib.Data.List.FinRange
import Mathlib.Data.Nat.Find
import Mathlib.Algebra.BigOperators.Fin

/-!
# Model of the fractional step operators that add, remove or move water

Sources
* `/repo/anuga/operators/rate_operators.py` 130-272 (`__init__`, `__call__`, rates), 380-470 (factor, areas, indices, `get_Q`);
* `/repo/anuga/utilities/function_utils.py` 78-122 (`evaluate_temporal_function`);
* `/repo/anuga/structures/inlet.py` 34-236 (areas, averages, setters, level filling);
* `/repo/anuga/structures/inlet_operator.py` 75-184 (`__call__`, `update_Q`);
* `/repo/anuga/structures/structure_operator.py` 213-376 (`__call__`);
* `/repo/anuga/abstract_2d_finite_volumes/generic_domain.py` 2312-2314 (`apply_fractional_steps`).

Simplifications
* exact ordered field;
* triangles are `Fin n`; a region is a list of triangles (negative numpy indices are not modelled), `indices=None` is the list of all
  triangles (the code has a second copy of each formula with `[:]`);
* functions of `x, y` act elementwise; `xarray` rates, logging and warnings are left out;
* numpy's `argsort` is an arbitrary permutation that sorts, its treatment of ties is not specified.
-/

namespace Verif.Ops

variable {K : Type*} [Field K] [LinearOrder K] {n : ℕ}

/-! ## Domain -/

/-- The fixed part of a domain used by operators: areas, centroids and `tri_full_flag`. -/
structure Dom (K : Type*) (n : ℕ) where
  area : Fin n → K
  full : Fin n → Bool
  cx : Fin n → K
  cy : Fin n → K

/-- Centroid values of the quantities, `domain.fractional_step_volume_integral` and `domain.boundary_flux_integral`. -/
structure State (K : Type*) (n : ℕ) where
  stage : Fin n → K
  elev : Fin n → K
  height : Fin n → K
  xmom : Fin n → K
  ymom : Fin n → K
  booked : K
  boundary : K

/-- `a[idx]` and `a.take(idx)`. -/
def take (a : Fin n → K) (idx : List (Fin n)) : List K := idx.map a

/-- `a[idx] = values` and `a.put(idx, values)`: written in order, so the last of several writes to one place stays. -/
def put : (Fin n → K) → List (Fin n) → List K → (Fin n → K)
  | a, i :: is, v :: vs => put (Function.update a i v) is vs
  | a, _, _ => a

/-- `a.put(idx, scalar)`. -/
def putAll (a : Fin n → K) (idx : List (Fin n)) (v : K) : Fin n → K := put a idx (idx.map fun _ => v)

/-- Result of calling a user's function of time: a value, or the data start later or end earlier. -/
inductive Eval (K : Type*) where
  | val (v : K)
  | early
  | late

/-- Exceptions. -/
inductive Err where
  | tooEarly
  | tooLate
  | assertion
  | noDefault
  | shape
  deriving DecidableEq, Repr

/-! ## Rate operator -/

/-- The rate of a `Rate_operator`, `set_rate`, `rate_operators.py` 322-364. A quantity and an array are both `field`. -/
inductive Rate (K : Type*) (n : ℕ) where
  | scalar (v : K)
  | temporal (f : K → Eval K)
  | xy (f : K → K → K)
  | xyt (f : K → K → K → K)
  | field (f : Fin n → K)

/-- `Rate_operator`. -/
structure RateOp (K : Type*) (n : ℕ) where
  rate : Rate K n
  factor : K → K
  default : Option (K → K)
  indices : Option (List (Fin n))
  cumulative : K
  localInflux : K

/-- The triangles the operator acts on. -/
def RateOp.cells (op : RateOp K n) : List (Fin n) := op.indices.getD (List.finRange n)

/-- A rate as numpy sees it: one number or an array over the cells. -/
inductive RateVal (K : Type*) where
  | one (v : K)
  | many (vs : List K)

/-- `evaluate_temporal_function`, `function_utils.py` 78-122, with the same default on both sides (`rate_operators.py` 274-278). -/
def evalTemporal (f : K → Eval K) (default : Option (K → K)) (t : K) : Except Err K :=
  match f t, default with
  | .val v, _ => .ok v
  | .early, some g => .ok (g t)
  | .late, some g => .ok (g t)
  | .early, none => .error .tooEarly
  | .late, none => .error .tooLate

/-- The rate used by a call, `rate_operators.py` 168-191, 264-320. -/
def RateOp.rateAt (d : Dom K n) (op : RateOp K n) (t : K) : Except Err (RateVal K) :=
  match op.rate with
  | .scalar v => .ok (.one v)
  | .temporal f => (evalTemporal f op.default t).map .one
  | .xy f => .ok (.many (op.cells.map fun i => f (d.cx i) (d.cy i)))
  | .xyt f => .ok (.many (op.cells.map fun i => f (d.cx i) (d.cy i) t))
  | .field f => .ok (.many (op.cells.map f))

/-- `num.all(rate >= 0.0)`. -/
def RateVal.allNonneg : RateVal K → Bool
  | .one v => decide (v ≥ 0)
  | .many vs => vs.all fun v => decide (v ≥ 0)

/-- Elementwise values over `cells` (numpy broadcasting). -/
def RateVal.over (cells : List (Fin n)) : RateVal K → List K
  | .one v => cells.map fun _ => v
  | .many vs => vs

/-- `(local_rates*self.areas)[fid].sum()`, `rate_operators.py` 205, 210 etc.; `full_indices` are positions in `indices` (423-433). -/
def influx (d : Dom K n) (cells : List (Fin n)) (rates : List K) : K :=
  (((cells.zip rates).filter fun p => d.full p.1).map fun p => p.2 * d.area p.1).sum

/-- `Rate_operator.__call__`, `rate_operators.py` 145-261. -/
def RateOp.call (d : Dom K n) (op : RateOp K n) (s : State K n) (t dt : K) : Except Err (RateOp K n × State K n) :=
  match op.rateAt d t with
  | .error e => .error e
  | .ok r =>
    let factor := op.factor t
    let rs := r.over op.cells
    if r.allNonneg then
      let local_ := rs.map fun r => factor * dt * r
      let q := influx d op.cells local_
      .ok ({ op with localInflux := q, cumulative := op.cumulative + q },
        { s with stage := put s.stage op.cells (List.zipWith (· + ·) (take s.stage op.cells) local_), booked := s.booked + q })
    else
      let heights := op.cells.map fun i => s.stage i - s.elev i
      let local_ := List.zipWith (fun r h => max (factor * dt * r) (-h)) rs heights
      let factors := List.zipWith (fun l h => if l < 0 then (l + h) / (h + 1 / 10 ^ 10) else 1) local_ heights
      let q := influx d op.cells local_
      .ok ({ op with localInflux := q, cumulative := op.cumulative + q },
        { s with
          height := match op.indices with
            | none => fun i => s.stage i - s.elev i
            | some _ => s.height
          stage := put s.stage op.cells (List.zipWith (· + ·) (take s.stage op.cells) local_)
          xmom := put s.xmom op.cells (List.zipWith (· * ·) (take s.xmom op.cells) factors)
          ymom := put s.ymom op.cells (List.zipWith (· * ·) (take s.ymom op.cells) factors)
          booked := s.booked + q })

/-- `get_Q(full_only=True)`, `rate_operators.py` 435-460: for a quantity or an array the whole array is indexed with positions of
full triangles in `indices`. -/
def RateOp.getQ (d : Dom K n) (op : RateOp K n) (t : K) : Except Err K :=
  let positions := (List.range op.cells.length).filter fun j => (op.cells[j]?.map d.full).getD false
  let areas := op.cells.map d.area
  match op.rate with
  | .field f =>
    if positions.all fun j => decide (j < n) then
      .ok ((positions.map fun j => areas.getD j 0 * (if h : j < n then f ⟨j, h⟩ else 0)).sum * op.factor t)
    else .error .shape
  | _ =>
    match op.rateAt d t with
    | .error e => .error e
    | .ok r => .ok ((positions.map fun j => areas.getD j 0 * (r.over op.cells).getD j 0).sum * op.factor t)

/-! ## Inlets -/

/-- `Inlet`: the triangles of the region (`triangle_indices`). -/
abbrev Inlet (n : ℕ) := List (Fin n)

/-- `self.area`, `inlet.py` 47. -/
def Inlet.area (d : Dom K n) (tri : Inlet n) : K := (tri.map d.area).sum

/-- Area-weighted average `num.sum(values*areas)/area`, `inlet.py` 74-104. -/
def Inlet.average (d : Dom K n) (tri : Inlet n) (a : Fin n → K) : K := (tri.map fun i => a i * d.area i).sum / Inlet.area d tri

/-- `get_total_water_volume`, `inlet.py` 112-114. -/
def Inlet.volume (d : Dom K n) (s : State K n) (tri : Inlet n) : K := (tri.map fun i => (s.stage i - s.elev i) * d.area i).sum

/-- `get_average_depth`, `inlet.py` 117-119. -/
def Inlet.averageDepth (d : Dom K n) (s : State K n) (tri : Inlet n) : K := Inlet.volume d s tri / Inlet.area d tri

/-- `set_depths` with a scalar, `inlet.py` 168-170. -/
def Inlet.setDepths (s : State K n) (tri : Inlet n) (depth : K) : State K n :=
  { s with stage := put s.stage tri (tri.map fun i => s.elev i + depth) }

/-- `set_xmoms` and `set_ymoms` with scalars, `inlet.py` 178-185. -/
def Inlet.setMoms (s : State K n) (tri : Inlet n) (x y : K) : State K n :=
  { s with xmom := putAll s.xmom tri x, ymom := putAll s.ymom tri y }

/-- Area of the cell at place `j` of the order, 0 beyond the end. -/
def sortedArea {k : ℕ} (areas : Fin k → K) (order : Equiv.Perm (Fin k)) (j : ℕ) : K :=
  if h : j < k then areas (order ⟨j, h⟩) else 0

/-- `num.cumsum(areas[stages_order])`, `inlet.py` 211. -/
def summedAreas {k : ℕ} (areas : Fin k → K) (order : Equiv.Perm (Fin k)) (j : ℕ) : K :=
  ∑ i ∈ Finset.range (j + 1), sortedArea areas order i

/-- `summed_volume`, `inlet.py` 214-215. -/
def summedVolume {k : ℕ} (areas stages : Fin k → K) (order : Equiv.Perm (Fin k)) (j : ℕ) : K :=
  ∑ i ∈ Finset.range j, summedAreas areas order i * (sortedArea stages order (i + 1) - sortedArea stages order i)

/-- `num.nonzero(summed_volume<=volume)[0][-1]`, `inlet.py` 217. -/
def lastFilled {k : ℕ} (areas stages : Fin k → K) (order : Equiv.Perm (Fin k)) (volume : K) : ℕ :=
  Nat.findGreatest (fun j => summedVolume areas stages order j ≤ volume) (k - 1)

/-- The new stages of `set_stages_evenly`, `inlet.py` 220-221. -/
def levelStages {k : ℕ} (areas stages : Fin k → K) (order : Equiv.Perm (Fin k)) (volume : K) : Fin k → K :=
  let index := lastFilled areas stages order volume
  let depth := (volume - summedVolume areas stages order index) / summedAreas areas order index
  fun i => if (order.symm i).val ≤ index then sortedArea stages order index + depth else stages i

/-- `argsort`, as a permutation of the places of the inlet's triangles for every array of stages. -/
abbrev Argsort (K : Type*) := (k : ℕ) → (Fin k → K) → Equiv.Perm (Fin k)

/-- `set_stages_evenly`, `inlet.py` 192-225; an error is the failed assertion. -/
def Inlet.setStagesEvenly (srt : Argsort K) (d : Dom K n) (s : State K n) (tri : Inlet n) (volume : K) : Except Err (State K n) :=
  if volume ≥ 0 then
    let stages := fun j : Fin tri.length => s.stage tri[j]
    let areas := fun j : Fin tri.length => d.area tri[j]
    .ok { s with stage := put s.stage tri (List.ofFn (levelStages areas stages (srt tri.length stages) volume)) }
  else .error .assertion

/-! ## Inlet operator -/

/-- `Inlet_operator`. -/
structure InletOp (K : Type*) (n : ℕ) where
  tri : Inlet n
  q : K → Eval K
  default : Option (K → K)
  velocity : Option (K × K)
  zeroVelocity : Bool
  appliedQ : K
  totalApplied : K
  totalRequested : K

/-- `update_Q`, `inlet_operator.py` 169-184, with `get_default` (257-281); calling a missing default is a `TypeError`. -/
def InletOp.updateQ (op : InletOp K n) (t : K) : Except Err K :=
  match op.q t, op.default with
  | .val v, _ => .ok v
  | _, some g => .ok (g t)
  | _, none => .error .noDefault

/-- `velocity_protection`, `config.py` 18. -/
def velocityProtection : K := 1 / 10 ^ 6

/-- Momentum after the water was changed, `inlet_operator.py` 122-134 and 142-153: `u` was computed before (112,
`inlet.py` 122-128). -/
def InletOp.momenta (op : InletOp K n) (old new : State K n) : State K n :=
  let vel := fun (m : Fin n → K) i =>
    m i * (old.stage i - old.elev i) / ((old.stage i - old.elev i) * (old.stage i - old.elev i) + velocityProtection)
  if op.zeroVelocity then Inlet.setMoms new op.tri 0 0
  else match op.velocity with
    | some (u, v) =>
      { new with xmom := put new.xmom op.tri (op.tri.map fun i => (new.stage i - new.elev i) * u),
                 ymom := put new.ymom op.tri (op.tri.map fun i => (new.stage i - new.elev i) * v) }
    | none =>
      { new with xmom := put new.xmom op.tri (op.tri.map fun i => (new.stage i - new.elev i) * vel old.xmom i),
                 ymom := put new.ymom op.tri (op.tri.map fun i => (new.stage i - new.elev i) * vel old.ymom i) }

/-- `Inlet_operator.__call__`, `inlet_operator.py` 75-166. -/
def InletOp.call (srt : Argsort K) (d : Dom K n) (op : InletOp K n) (s : State K n) (t dt : K) :
    Except Err (InletOp K n × State K n) :=
  let current := Inlet.volume d s op.tri
  let area := Inlet.area d op.tri
  if current ≥ 0 then
    match op.updateQ t, op.updateQ (t + dt) with
    | .ok q1, .ok q2 =>
      let q := 1 / 2 * (q1 + q2)
      let volume := q * dt
      if volume ≥ 0 then
        match Inlet.setStagesEvenly srt d s op.tri volume with
        | .error e => .error e
        | .ok s1 =>
          .ok ({ op with appliedQ := q, totalRequested := op.totalRequested + volume, totalApplied := op.totalApplied + volume },
            op.momenta s { s1 with booked := s1.booked + volume })
      else if current + volume ≥ 0 then
        let s1 := Inlet.setDepths s op.tri ((current + volume) / area)
        .ok ({ op with appliedQ := q, totalRequested := op.totalRequested + volume, totalApplied := op.totalApplied + volume },
          op.momenta s { s1 with booked := s1.booked + volume })
      else
        let s1 := Inlet.setDepths s op.tri 0
        .ok ({ op with appliedQ := -current / dt, totalRequested := op.totalRequested + volume,
                       totalApplied := op.totalApplied + -current },
          Inlet.setMoms { s1 with booked := s1.booked - current } op.tri 0 0)
    | .error e, _ => .error e
    | _, .error e => .error e
  else .error .assertion

/-! ## Structures -/

/-- `Structure_operator`: the two inlets in the roles chosen by the discharge routine, the outward direction of the outflow inlet
and the options. -/
structure StructOp (K : Type*) (n : ℕ) where
  inflow : Inlet n
  outflow : Inlet n
  dirX : K
  dirY : K
  useJet : Bool
  zeroOut : Bool
  oldMomentum : Bool
  alwaysAdjust : Bool
  accumulated : K
  discharge : K

/-- `Structure_operator.__call__`, `structure_operator.py` 213-376, for a discharge `q` and barrel speed returned by the discharge
routine; an error is the failed assertion at 318 (`allclose(gain-loss, 0.0)`). -/
def StructOp.call (d : Dom K n) (op : StructOp K n) (s : State K n) (q speed dt : K) : Except Err (StructOp K n × State K n) :=
  let ain := Inlet.area d op.inflow
  let aout := Inlet.area d op.outflow
  let oldDepth := Inlet.averageDepth d s op.inflow
  let oldX := Inlet.average d op.inflow s.xmom
  let oldY := Inlet.average d op.inflow s.ymom
  let dtQonD := if oldDepth > 0 then dt * q / oldDepth else 0
  let adjust := op.alwaysAdjust || decide (oldDepth * ain ≤ q * dt)
  let factor := 1 / (1 + dtQonD / ain)
  let newDepth := if adjust then oldDepth * factor else oldDepth - dt * q / ain
  let dtStar := if adjust then (if oldDepth > 0 then dt * newDepth / oldDepth else 0) else dt
  let factor2 :=
    if op.oldMomentum then factor
    else if oldDepth > 0 then
      if adjust then 1 / (1 + dtQonD * newDepth / (oldDepth * ain)) else 1 / (1 + dt * q / (oldDepth * ain))
    else 0
  let newX := oldX * factor2
  let newY := oldY * factor2
  let s1 := Inlet.setMoms (Inlet.setDepths s op.inflow newDepth) op.inflow newX newY
  let loss := (oldDepth - newDepth) * ain
  let xloss := (oldX - newX) * ain
  let yloss := (oldY - newY) * ain
  let extra := q * dtStar / aout
  let gain := extra * aout
  if |gain - loss| ≤ 1 / 10 ^ 8 then
    let newOut := Inlet.averageDepth d s1 op.outflow + extra
    let s2 := Inlet.setDepths s1 op.outflow newOut
    let outX := if op.useJet then speed * newOut * -op.dirX else if op.zeroOut then 0
      else Inlet.average d op.outflow s2.xmom + xloss / aout
    let outY := if op.useJet then speed * newOut * -op.dirY else if op.zeroOut then 0
      else Inlet.average d op.outflow s2.ymom + yloss / aout
    .ok ({ op with accumulated := op.accumulated + gain, discharge := q * dtStar / dt }, Inlet.setMoms s2 op.outflow outX outY)
  else .error .assertion

/-! ## All operators of a domain -/

/-- An operator registered with a domain. The discharge routine of a structure (different for each subclass) is any function of the
state giving discharge and barrel speed. -/
inductive Op (K : Type*) (n : ℕ) where
  | rate (op : RateOp K n)
  | inlet (op : InletOp K n)
  | structure (op : StructOp K n) (routine : State K n → K × K)

/-- One operator called. -/
def Op.call (srt : Argsort K) (d : Dom K n) (op : Op K n) (s : State K n) (t dt : K) : Except Err (Op K n × State K n) :=
  match op with
  | .rate o => (o.call d s t dt).map fun r => (.rate r.1, r.2)
  | .inlet o => (o.call srt d s t dt).map fun r => (.inlet r.1, r.2)
  | .structure o routine => (o.call d s (routine s).1 (routine s).2 dt).map fun r => (.structure r.1 routine, r.2)

/-- `apply_fractional_steps`, `generic_domain.py` 2312-2314: the operators in the order in which they were registered. -/
def applyAll (srt : Argsort K) (d : Dom K n) (t dt : K) : List (Op K n) → State K n → Except Err (List (Op K n) × State K n)
  | [], s => .ok ([], s)
  | op :: ops, s =>
    match op.call srt d s t dt with
    | .error e => .error e
    | .ok (op', s1) =>
      match applyAll srt d t dt ops s1 with
      | .error e => .error e
      | .ok (ops', s2) => .ok (op' :: ops', s2)

/-- The time loop as far as operators are concerned, `generic_domain.py` 1843-1850: in each step the flow is advanced (any function of
the state), then the operators are applied. A step is the time, the timestep and the advance. -/
def runOps (srt : Argsort K) (d : Dom K n) : List (K × K × (State K n → State K n)) → List (Op K n) → State K n →
    Except Err (List (Op K n) × State K n)
  | [], ops, s => .ok (ops, s)
  | (t, dt, advance) :: steps, ops, s =>
    match applyAll srt d t dt ops (advance s) with
    | .error e => .error e
    | .ok (ops', s') => runOps srt d steps ops' s'

/-- `get_water_volume` once height is up to date, `shallow_water_domain.py` 1626-1670 for one process: the integral of height over the
triangles that are not ghosts (`quantity.py` `get_integral`). -/
def getWaterVolume (d : Dom K n) (s : State K n) : K :=
  (((List.finRange n).filter fun i => d.full i).map fun i => (s.stage i - s.elev i) * d.area i).sum

/-- The imbalance printed by `report_water_volume_statistics`, `shallow_water_domain.py` 2749-2781: `V - BF - FS - InitialVolume`. -/
def volumeImbalance (d : Dom K n) (initial : K) (s : State K n) : K := getWaterVolume d s - s.boundary - s.booked - initial

end Verif.Ops
