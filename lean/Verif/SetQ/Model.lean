import Verif.NodeAvg.Model
import Mathlib.Algebra.Order.Field.Basic

/-!
# Model of setting a quantity, the stage and the elevation, of collecting maxima and of the inundation queries

Sources
* `/repo/anuga/operators/set_quantity.py` 28-178 (`Set_quantity`);
* `/repo/anuga/operators/set_stage.py` 30-142 (`Set_stage`), `/repo/anuga/operators/set_stage_operator.py` 25-62
  (`Set_stage_operator`, a `Set_quantity_operator`), `/repo/anuga/operators/set_quantity_operator.py` 23-70;
* `/repo/anuga/operators/set_elevation.py` 31-295 (`Set_elevation`), used unchanged by `Set_elevation_operator`;
* `/repo/anuga/operators/collect_max_quantities_operator.py` 33-109;
* `/repo/anuga/shallow_water/shallow_water_domain.py` 1563-1623 (wet elements, maximum inundation);
* `/repo/anuga/abstract_2d_finite_volumes/quantity.py` 1801-1922 (extrema), 2146-2151 (`smooth_vertex_values`), 2085-2144.

Simplifications: exact field; triangles, nodes and corners (`3 * triangle + vertex`) are natural numbers and arrays are functions on them;
the array a user's function returns must have one entry, or as many entries as there are points (other shapes raise `ValueError`, as
numpy's broadcasting does for vectors); the orders in which Python's sets list nodes and triangles are arbitrary.
-/

namespace Verif.SetQ

open Verif.NodeAvg

variable {K : Type*} [Field K] [LinearOrder K]

/-! ## Values -/

/-- Result of calling a user's function: `ValueError`, another exception, a number, an array. -/
inductive Res (K : Type*) where
  | valueError
  | other
  | one (v : K)
  | many (vs : List K)

/-- The value kinds told apart by `determine_function_type`. -/
inductive Value (K : Type*) where
  | scalar (v : K)
  | time (f : K → Res K)
  | space (f : List (K × K) → Res K)
  | both (f : List (K × K) → K → Res K)

/-- `get_value(x, y)` at the domain's time, `set_quantity.py` 146-178. -/
def Value.get (v : Value K) (pts : List (K × K)) (t : K) : Res K :=
  match v with
  | .scalar c => .one c
  | .time f => f t
  | .space f => f pts
  | .both f => f pts t

/-- numpy's broadcasting of a value to `n` places; `none` is `ValueError`. -/
def spread (n : ℕ) : List K → Option (List K)
  | [v] => some (List.replicate n v)
  | vs => if vs.length = n then some vs else none

/-- What a call does: go on with values for all places, silently give up (`except ValueError: pass`), or raise. -/
inductive Go (K : Type*) where
  | values (vs : List K)
  | skip
  | raise

def Res.go (n : ℕ) : Res K → Go K
  | .valueError => .skip
  | .other => .raise
  | .one v => .values (List.replicate n v)
  | .many vs =>
    match spread n vs with
    | some ws => .values ws
    | none => .skip

/-! ## Domain -/

/-- The fixed part: number of triangles, node of every corner, argsort of these, number of nodes, coordinates, flags. -/
structure Dom (K : Type*) where
  n : ℕ
  flat : List ℕ
  vvi : List ℕ
  nodes : ℕ
  cx : ℕ → K
  cy : ℕ → K
  vx : ℕ → K
  vy : ℕ → K
  discontinuous : Bool
  centroidAvg : Bool

/-- Centroid values of stage, elevation and momenta; vertex and edge values of the elevation. -/
structure State (K : Type*) where
  stage : ℕ → K
  elev : ℕ → K
  xmom : ℕ → K
  ymom : ℕ → K
  ev : ℕ → K
  ee : ℕ → K

/-- `a[idx] = values`, written in order. -/
def put : (ℕ → K) → List ℕ → List K → (ℕ → K)
  | a, i :: is, v :: vs => put (Function.update a i v) is vs
  | a, _, _ => a

/-- The triangles acted on: `indices`, or all if it is `None`. -/
def cells (d : Dom K) (indices : Option (List ℕ)) : List ℕ := indices.getD (List.range d.n)

/-- Centroids of triangles. -/
def centroidPts (d : Dom K) (ids : List ℕ) : List (K × K) := ids.map fun k => (d.cx k, d.cy k)

/-- Corners of triangles, row by row. -/
def corners (ids : List ℕ) : List ℕ := ids.flatMap fun k => [3 * k, 3 * k + 1, 3 * k + 2]

/-- `v_x`, `v_y`, `set_elevation.py` 77-84. -/
def vertexPts (d : Dom K) (ids : List ℕ) : List (K × K) := (corners ids).map fun c => (d.vx c, d.vy c)

/-! ## Set_quantity, Set_stage -/

/-- `Set_quantity.__call__`, `set_quantity.py` 89-135, acting on one array of centroid values; `none` is an exception. -/
def setQuantity (d : Dom K) (v : Value K) (indices : Option (List ℕ)) (t : K) (q : ℕ → K) : Option (ℕ → K) :=
  let ids := cells d indices
  match (v.get (centroidPts d ids) t).go ids.length with
  | .values vs => some (put q ids vs)
  | .skip => some q
  | .raise => none

/-- `Set_stage.__call__`, `set_stage.py` 91-142. -/
def setStage (d : Dom K) (v : Value K) (indices : Option (List ℕ)) (t : K) (s : State K) : Option (State K) :=
  if indices = some [] then some s
  else
    let ids := cells d indices
    match (v.get (centroidPts d ids) t).go ids.length with
    | .values vs => some { s with stage := put s.stage ids (List.zipWith max (ids.map s.elev) vs) }
    | .skip => some s
    | .raise => none

/-- `Set_stage_operator.__call__`: that of `Set_quantity`, `set_stage_operator.py` 25-62, `set_quantity_operator.py` 34. -/
def setStageOperator (d : Dom K) (v : Value K) (indices : Option (List ℕ)) (t : K) (s : State K) : Option (State K) :=
  (setQuantity d v indices t s.stage).map fun q => { s with stage := q }

/-! ## Set_elevation -/

/-- `num.mean(elev_v[k])` and the edge midpoints, `set_elevation.py` 172-176, also `interpolate`, `quantity.c`. -/
def vertexMean (ev : ℕ → K) (k : ℕ) : K := (ev (3 * k) + ev (3 * k + 1) + ev (3 * k + 2)) / 3
def midpoint (ev : ℕ → K) (c : ℕ) : K :=
  let k := c / 3
  match c % 3 with
  | 0 => 1 / 2 * (ev (3 * k + 1) + ev (3 * k + 2))
  | 1 => 1 / 2 * (ev (3 * k + 2) + ev (3 * k))
  | _ => 1 / 2 * (ev (3 * k) + ev (3 * k + 1))

/-- One pass of the loop over `node_ids`, `set_elevation.py` 154-165: the slice of `vertex_value_indices` of the node gets its mean. -/
def levelNode (d : Dom K) (ev : ℕ → K) (nid : ℕ) : ℕ → K :=
  let cnt := perNode d.flat nid
  let slice := (List.range cnt).map fun j => d.vvi.getD (nodeIndex d.flat nid + j) 0
  let res := (slice.map ev).sum / (cnt : K)
  put ev slice (slice.map fun _ => res)

/-- Triangles whose corners were listed for the nodes, `set_elevation.py` 285-294 (before `list(set(...))`). -/
def volIds (d : Dom K) (nodeIds : List ℕ) : List ℕ :=
  nodeIds.flatMap fun nid => (List.range (perNode d.flat nid)).map fun j => d.vvi.getD (nodeIndex d.flat nid + j) 0 / 3

/-- `node_ids`: the nodes of the triangles in `indices`, in any order, `set_elevation.py` 265-271. -/
def IsNodeIds (d : Dom K) (ids nodeIds : List ℕ) : Prop :=
  nodeIds.Nodup ∧ ∀ v, v ∈ nodeIds ↔ ∃ c ∈ corners ids, d.flat[c]? = some v

/-- `vols`: `list(set(vol_ids))` in any order. -/
def IsVols (d : Dom K) (nodeIds vols : List ℕ) : Prop := vols.Nodup ∧ ∀ k, k ∈ vols ↔ k ∈ volIds d nodeIds

/-- `smooth_vertex_values` as called here, `quantity.py` 2146-2151, 2187-2225: with `using_centroid_averaging` the nodes get
averages of centroid values, otherwise of vertex values. -/
def smoothElev (d : Dom K) (elev ev : ℕ → K) : ℕ → K :=
  setVertexValues d.flat d.vvi ((List.range d.nodes).map fun v =>
    (v, if d.centroidAvg then nodeAverageCentroid d.flat d.vvi elev v else nodeAverage d.flat d.vvi ev v)) ev

/-- `Set_elevation.__call__` with `update_quantities`, `set_elevation.py` 99-241. `value = none` is the Python `None`. -/
def setElevation (d : Dom K) (v : Option (Value K)) (indices : Option (List ℕ)) (nodeIds vols : List ℕ) (t : K) (s : State K) :
    Option (State K) :=
  match v with
  | none => some s
  | some v =>
    let ids := cells d indices
    if d.discontinuous then
      let height := ids.map fun k => s.stage k - s.elev k
      match (v.get (centroidPts d ids) t).go ids.length with
      | .values vs =>
        let elev := put s.elev ids vs
        some { s with elev := elev, stage := put s.stage ids (List.zipWith (· + ·) (ids.map elev) height) }
      | .skip => some s
      | .raise => none
    else
      match (v.get (vertexPts d ids) t).go (corners ids).length with
      | .values vs =>
        let ev := put s.ev (corners ids) vs
        match indices with
        | none =>
          let height := ids.map fun k => s.stage k - s.elev k
          let ev := smoothElev d s.elev ev
          let elev := put s.elev ids (ids.map (vertexMean ev))
          some { s with
            ev := ev
            elev := elev
            ee := put s.ee (corners ids) ((corners ids).map (midpoint ev))
            stage := put s.stage ids (List.zipWith (· + ·) (ids.map elev) height) }
        | some _ =>
          let height := vols.map fun k => s.stage k - s.elev k
          let ev := nodeIds.foldl (levelNode d) ev
          let elev := put s.elev vols (vols.map (vertexMean ev))
          some { s with
            ev := ev
            elev := elev
            ee := put s.ee (corners vols) ((corners vols).map (midpoint ev))
            stage := put s.stage vols (List.zipWith (· + ·) (vols.map elev) height) }
      | .skip => some s
      | .raise => none

/-! ## Collect_max_quantities_operator -/

/-- What the operator reads at one triangle. -/
structure Cell (K : Type*) where
  stage : K
  elev : K
  xmom : K
  ymom : K

/-- The stored maxima of one triangle. -/
structure Maxima (K : Type*) where
  stage : K
  depth : K
  speed : K
  speedDepth : K

/-- The operator: its maxima (one entry per triangle), counter and settings. -/
structure Collect (K : Type*) where
  maxima : List (Maxima K)
  counter : ℕ
  frequency : ℕ
  start : K
  zeroHeight : K

/-- `__init__`, `collect_max_quantities_operator.py` 33-82; `none` if `update_frequency = 0`. -/
def Collect.make (maxFloat minHeight : K) (n frequency : ℕ) (start : K) (zeroHeight : Option K) : Option (Collect K) :=
  if frequency > 0 then
    some ⟨List.replicate n ⟨0 - maxFloat, 0, 0, 0⟩, 0, frequency, start, zeroHeight.getD minHeight⟩
  else none

/-- Update of one triangle, `collect_max_quantities_operator.py` 97-107. -/
def Maxima.update (sq : K → K) (minHeight zeroHeight : K) (m : Maxima K) (c : Cell K) : Maxima K :=
  let norm := sq (c.xmom ^ 2 + c.ymom ^ 2)
  let depth := max (c.stage - c.elev) minHeight
  let speed := norm / depth * (if depth > zeroHeight then 1 else 0)
  ⟨max m.stage c.stage, max m.depth depth, max m.speed speed, max m.speedDepth norm⟩

/-- `__call__`, `collect_max_quantities_operator.py` 85-109, at time `t`. -/
def Collect.call (sq : K → K) (minHeight : K) (o : Collect K) (t : K) (cs : List (Cell K)) : Collect K :=
  if t > o.start then
    if o.counter + 1 = o.frequency then
      { o with maxima := List.zipWith (Maxima.update sq minHeight o.zeroHeight) o.maxima cs, counter := 0 }
    else { o with counter := o.counter + 1 }
  else o

/-- All calls of a run, in order. -/
def Collect.run (sq : K → K) (minHeight : K) (o : Collect K) (calls : List (K × List (Cell K))) : Collect K :=
  calls.foldl (fun o c => o.call sq minHeight c.1 c.2) o

/-! ## Wet elements and maximum inundation -/

/-- `num.take(a, indices)`; `none` is `IndexError`. -/
def takeAll (a : List K) (idx : List ℕ) : Option (List K) := idx.mapM fun i => a[i]?

/-- `get_values(location='centroids', indices=indices)`, `quantity.py` 2042-2046. -/
def values (a : List K) (indices : Option (List ℕ)) : Option (List K) :=
  match indices with
  | none => some a
  | some idx => takeAll a idx

/-- `num.compress(depth > minimum_height, num.arange(len(depth)))`. -/
def compress (minHeight : K) (depth : List K) : List ℕ :=
  (List.range depth.length).filter fun i => decide ((depth[i]?).getD 0 > minHeight)

/-- `get_wet_elements`, `shallow_water_domain.py` 1563-1591. -/
def wetElements (minHeight : K) (elev stage : List K) (indices : Option (List ℕ)) : Option (List ℕ) :=
  match values elev indices, values stage indices with
  | some e, some s => some (compress minHeight (List.zipWith (· - ·) s e))
  | _, _ => none

/-- `num.argmax`: the first place of the greatest entry. -/
def argmaxFrom : List K → ℕ → (ℕ × K) → ℕ
  | [], _, best => best.1
  | x :: xs, i, best => argmaxFrom xs (i + 1) (if best.2 < x then (i, x) else best)

def argmax : List K → Option ℕ
  | [] => none
  | x :: xs => some (argmaxFrom xs 1 (0, x))

/-- `get_maximum_index`, `quantity.py` 1801-1837; `none` is an exception. -/
def maximumIndex (a : List K) (indices : Option (List ℕ)) : Option ℕ :=
  match values a indices with
  | none => none
  | some v =>
    match argmax v with
    | none => none
    | some i =>
      match indices with
      | none => some i
      | some idx => idx[i]?

/-- `get_maximum_value`, `quantity.py` 1839-1855. -/
def maximumValue (a : List K) (indices : Option (List ℕ)) : Option K :=
  match maximumIndex a indices with
  | some i => a[i]?
  | none => none

/-- `get_maximum_inundation_elevation`, `shallow_water_domain.py` 1593-1607. -/
def maxInundationElevation (minHeight : K) (elev stage : List K) (indices : Option (List ℕ)) : Option K :=
  match wetElements minHeight elev stage indices with
  | some w => maximumValue elev (some w)
  | none => none

/-- `get_maximum_inundation_location`, 1609-1623: index of the triangle whose centroid is returned. -/
def maxInundationTriangle (minHeight : K) (elev stage : List K) (indices : Option (List ℕ)) : Option ℕ :=
  match wetElements minHeight elev stage indices with
  | some w => maximumIndex elev (some w)
  | none => none

end Verif.SetQ
