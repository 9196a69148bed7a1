import Verif.SetQ.Model
import Mathlib.Algebra.Order.Field.Basic

/-!
# Model of the erosion operators

Sources
* `/repo/anuga/operators/erosion_operators.py` 21-240, 410-442 (`Erosion_operator`), 504-645
  (`Bed_shear_erosion_operator`), 648-731 (`Flat_slice_erosion_operator`), 735-828 (`Flat_fill_slice_erosion_operator`);
* `/repo/anuga/operators/sanddune_erosion_operator.py` 97-284 (`Sanddune_erosion_operator`).

Built on the domain, state and node levelling of `Verif.SetQ.Model`: `clean_up_elevation_stage` is the same code as the end of
`Set_elevation.__call__`.

Simplifications: exact field; `num.sqrt`, `d**2.333` and `tan` are arguments; the slopes of the water surface left behind by
`compute_local_gradients` are arguments; the target level is one number or an exception; the reported `max_change` is left out except
that its computation fails for an empty region.
-/

namespace Verif.Erode

open Verif.SetQ Verif.NodeAvg

variable {K : Type*} [Field K] [LinearOrder K]

/-! ## numpy shapes -/

/-- An `(n,3)` array. -/
abbrev Rows (K : Type*) := List (K × K × K)

/-- `a - v` for an `(n,3)` array and an `(n,)` array, lined up on the last axis; `none` is `ValueError`. -/
def minusVector (a : Rows K) (v : List K) : Option (Rows K) :=
  match v with
  | [x] => some (a.map fun r => (r.1 - x, r.2.1 - x, r.2.2 - x))
  | [x, y, z] => some (a.map fun r => (r.1 - x, r.2.1 - y, r.2.2 - z))
  | _ => none

/-- `a[:] = v` for an `(n,3)` array and an `(n,)` array; `none` is `ValueError`. -/
def spreadVector (n : ℕ) (v : List K) : Option (List K) :=
  match v with
  | [x] => some (List.replicate n [x, x, x]).flatten
  | [x, y, z] => some (List.replicate n [x, y, z]).flatten
  | _ => none

/-- `elev_v[ind]`. -/
def rowsOf (ev : ℕ → K) (ids : List ℕ) : Rows K := ids.map fun k => (ev (3 * k), ev (3 * k + 1), ev (3 * k + 2))

/-- One row of `num.amax(num.maximum(_, base), axis=1)`. -/
def rowTop (base : K) (r : K × K × K) : K := max (max (max r.1 base) (max r.2.1 base)) (max r.2.2 base)

/-! ## Clean up -/

/-- Give the triangles `ids` new centroid elevations and put the old depth of water on top, `erosion_operators.py` 123-125, 617-626. -/
def liftWater (s : State K) (ids : List ℕ) (new : List K) : State K :=
  let height := ids.map fun k => s.stage k - s.elev k
  let elev := put s.elev ids new
  { s with elev := elev, stage := put s.stage ids (List.zipWith (· + ·) (ids.map elev) height) }

/-- `clean_up_elevation_stage` for a list of triangles and continuous elevation, `erosion_operators.py` 196-227, after the corners of the
region got the values `ev`. -/
def cleanUp (d : Dom K) (nodeIds vols : List ℕ) (ev : ℕ → K) (s : State K) : State K :=
  let ev := nodeIds.foldl (levelNode d) ev
  { liftWater s vols (vols.map (vertexMean ev)) with
    ev := ev
    ee := put s.ee (corners vols) ((corners vols).map (midpoint ev)) }

/-! ## Erosion_operator -/

/-- Parameters of an operator: threshold and base, `erosion_operators.py` 60-61. -/
structure Limits (K : Type*) where
  threshold : K
  base : K

/-- `m` after `num.where(m>self.threshold, m, 0.0)`, times `dt`, `erosion_operators.py` 117-130. -/
def scour (sq : K → K) (l : Limits K) (dt : K) (s : State K) (k : ℕ) : K :=
  let m := sq (s.xmom k ^ 2 + s.ymom k ^ 2)
  (if m > l.threshold then m else 0) * dt

/-- `Erosion_operator.__call__` and `update_quantities`, `erosion_operators.py` 93-165, for a list of triangles; `none` is an exception.
For discontinuous elevation `elev_v[ind] - de` mixes an `(n,3)` and an `(n,)` array; for continuous elevation the `(n,)` array of row
maxima is assigned to the `(n,3)` array `elev_v[ind]`. -/
def erosion (sq : K → K) (d : Dom K) (l : Limits K) (ids nodeIds vols : List ℕ) (dt : K) (s : State K) : Option (State K) :=
  if d.discontinuous then
    match minusVector (rowsOf s.ev ids) (ids.map (scour sq l dt s)) with
    | none => none
    | some rows => some (liftWater s ids (rows.map (rowTop l.base)))
  else
    let rows := ids.map fun k =>
      let e := scour sq l dt s k
      (s.ev (3 * k) - e, s.ev (3 * k + 1) - e, s.ev (3 * k + 2) - e)
    match spreadVector ids.length (rows.map (rowTop l.base)) with
    | none => none
    | some new => some (cleanUp d nodeIds vols (put s.ev (corners ids) new) s)

/-- An operator made without region (`indices` is `None`): with continuous elevation the constructor loops over `None`
(`erosion_operators.py` 84, 421) and raises; otherwise a call adds zero to the elevation, 103-108, 571-576, 700-705, 787-792. -/
def withoutRegion (d : Dom K) (s : State K) : Option (State K) :=
  if d.discontinuous then some { s with elev := fun k => s.elev k + 0 } else none

/-! ## Bed_shear_erosion_operator -/

/-- Depth eroded at a triangle, `erosion_operators.py` 586-621: energy slope, trigger is the velocity. `slope k` is the length of the
gradient of the stage. -/
def shearScour (sq : K → K) (l : Limits K) (factor : K) (slope : ℕ → K) (dt : K) (s : State K) (k : ℕ) : K :=
  let m := sq (s.xmom k ^ 2 + s.ymom k ^ 2)
  let h := s.stage k - s.elev k
  let v := m / (h + 1 / 10 ^ 10)
  let de := 1000 * (981 / 100) * h * slope k / factor * dt
  if v > l.threshold then de else 0

/-- `Bed_shear_erosion_operator.__call__`, `erosion_operators.py` 543-645 with 140-227. -/
def shear (sq : K → K) (d : Dom K) (l : Limits K) (factor : K) (slope : ℕ → K) (ids nodeIds vols : List ℕ) (dt : K) (s : State K) :
    State K :=
  let de := shearScour sq l factor slope dt s
  if d.discontinuous then liftWater s ids (ids.map fun k => max (s.elev k - de k) l.base)
  else cleanUp d nodeIds vols (put s.ev (corners ids) ((corners ids).map fun c => max (s.ev c - de (c / 3)) l.base)) s

/-! ## Flat_slice_erosion_operator, Flat_fill_slice_erosion_operator -/

/-- `num.where(z > value, value, z)` and its opposite. -/
def cut (value z : K) : K := if z > value then value else z
def raise (value z : K) : K := if z < value then value else z

/-- `num.max`; `none` is the `ValueError` for an empty array. -/
def greatest : List K → Option K
  | [] => none
  | a :: l => some (l.foldl max a)

/-- `Flat_slice_erosion_operator.__call__`, `erosion_operators.py` 689-731 with 140-227; `value` is `self.elevation(t)`, `none` if it raises
(the exception is swallowed, the clean up still happens). -/
def slice (d : Dom K) (value : Option K) (ids nodeIds vols : List ℕ) (s : State K) : State K :=
  if d.discontinuous then
    match value with
    | none => s
    | some v => liftWater s ids (ids.map fun k => cut v (s.elev k))
  else
    let ev := match value with
      | none => s.ev
      | some v => put s.ev (corners ids) ((corners ids).map fun c => cut v (s.ev c))
    cleanUp d nodeIds vols ev s

/-- New levels of `Flat_fill_slice_erosion_operator`, `erosion_operators.py` 807-810, 819-822; `none` if nothing is changed. -/
def fillLevels (value : Option K) (z : List K) : Option (List K) :=
  match value, greatest z with
  | some v, some top => some (if v > top then z.map (raise v) else z.map (cut v))
  | _, _ => none

/-- `Flat_fill_slice_erosion_operator.__call__`, `erosion_operators.py` 775-828 with 140-227. -/
def fillSlice (d : Dom K) (value : Option K) (ids nodeIds vols : List ℕ) (s : State K) : State K :=
  if d.discontinuous then
    match fillLevels value (ids.map s.elev) with
    | none => s
    | some new => liftWater s ids new
  else
    let ev := match fillLevels value ((corners ids).map s.ev) with
      | none => s.ev
      | some new => put s.ev (corners ids) new
    cleanUp d nodeIds vols ev s

/-! ## Sanddune_erosion_operator -/

/-- What the operator knows: `tan` of the angle of repose, `d ** 2.333`, gravity, base levels, surrogate neighbours of triangles.
`base = none` is a plain number (also the default `0.0`), `sanddune_erosion_operator.py` 129-160. -/
structure Dune (K : Type*) where
  repose : K
  pow : K → K
  g : K
  base : Option (ℕ → K)
  neighbour : ℕ → Fin 3 → ℕ

/-- `num.argmin` of the three entries: the first least one. -/
def argmin3 (a : Fin 3 → K) : Fin 3 :=
  if a 0 ≤ a 1 ∧ a 0 ≤ a 2 then 0 else if a 1 ≤ a 2 then 1 else 2

/-- Depth scoured, `sanddune_erosion_operator.py` 131-136, 210-221: `n = 0.030`, `Tau_crit = 2.1`, `Kd = 0.025`, `Sd = 1800`, `Wd = 1000`. -/
def duneScour (p : Dune K) (dt : K) (s : State K) (k : ℕ) : K :=
  let h := s.stage k - s.elev k
  let m2 := s.xmom k ^ 2 + s.ymom k ^ 2
  let tau := 1000 * p.g * (3 / 100) ^ 2 * m2 / (p.pow h + 1 / 10 ^ 6)
  let de := 25 / 1000 / 1800 * dt * (tau - 21 / 10)
  if de > 0 then de else 0

/-- Level after the collapse of one triangle, `sanddune_erosion_operator.py` 246-275, from the levels `z` after scour. -/
def collapse (sq : K → K) (d : Dom K) (p : Dune K) (base : ℕ → K) (z : ℕ → K) (k : ℕ) : K :=
  let low := p.neighbour k (argmin3 fun i => z (p.neighbour k i))
  let lxy := sq ((d.cx k - d.cx low) ^ 2 + (d.cy k - d.cy low) ^ 2)
  let slope := if lxy > 0 then (z k - z low) / lxy else 0
  if slope > p.repose then max (z low + p.repose * lxy) (base k) else z k

/-- `Sanddune_erosion_operator.__call__`, `sanddune_erosion_operator.py` 164-279, for a list of triangles, on one processor; `none` is the
`TypeError` of `self.base[ind]` for a number. -/
def dune (sq : K → K) (d : Dom K) (p : Dune K) (ids : List ℕ) (dt : K) (s : State K) : Option (State K) :=
  match p.base with
  | none => none
  | some base =>
    let height := ids.map fun k => s.stage k - s.elev k
    let z := put s.elev ids (ids.map fun k => max (s.elev k - duneScour p dt s k) (base k))
    let elev := put z ids (ids.map (collapse sq d p base z))
    some { s with elev := elev, stage := put s.stage ids (List.zipWith (· + ·) (ids.map elev) height) }

end Verif.Erode
