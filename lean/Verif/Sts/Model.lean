import Verif.FileFn.Model
import Verif.Quad.Model

/-!
# Model of functions read from files of gauges (`.sts`)

Sources
* `/repo/anuga/abstract_2d_finite_volumes/file_function.py` 231-497 (`get_netcdf_file_function`), in particular 380-428 (gauges on the boundary
  polygon) and 455-461 (their columns);
* `/repo/anuga/fit_interpolate/interpolate.py` 754-1005 (`Interpolation_function.__init__`), in particular 990-995;
* `/repo/anuga/geometry/polygon.py` 1069-1129 (`interpolate_polyline`), `/repo/anuga/geometry/polygon.c` 270-318 (`__interpolate_polyline`).

Simplifications: exact field (`sqrt` a parameter). A file is given by its contents; its arrays have a row for every time (the dimensions of a
NetCDF file). The loops over nodes and points are exchanged (the points do not influence each other). That the array given as
`boundary_polygon` is itself shifted is left out. Times before the cut, thinning and calls are those of `Verif.FileFn`.
-/

namespace Verif.Sts

open Verif.Polygon (Pt)
open Verif.Interp (thin monotone)
open Verif.FileFn (File Fn Opts Var Pre Cell limited movedBack relTo)
open Verif.Quad (onLine)

variable {K : Type*} [Field K] [LinearOrder K]

/-- Exceptions. -/
inductive Err where
  | noQuantities
  | missing
  | notSpatial
  | noTime
  | noGauge
  | segments
  | shape
  | decreasing
  | noPolygon
  | onePoint
  deriving DecidableEq, Repr

/-- `num.allclose(vertex_coordinates[j], boundary_polygon[i], rtol=1e-4, atol=1e-4)`, `file_function.py` 394-395. -/
def close (g b : Pt K) : Bool :=
  decide (|g.x - b.x| ≤ 1 / 10 ^ 4 + 1 / 10 ^ 4 * |b.x|) && decide (|g.y - b.y| ≤ 1 / 10 ^ 4 + 1 / 10 ^ 4 * |b.y|)

/-- The first gauge at a vertex of the polygon, the inner loop, `file_function.py` 393-403. -/
def gaugeAt (gauges : List (Pt K)) (b : Pt K) : Option ℕ := gauges.findIdx? fun g => close g b

/-- An entry of `boundary_id`, `gauge_id` and `temp`. -/
structure Sel (K : Type*) where
  boundary : ℕ
  gauge : ℕ
  pos : Pt K

/-- The loop over the vertices of the polygon, `file_function.py` 389-403. -/
def select (gauges poly : List (Pt K)) : List (Sel K) :=
  (List.range poly.length).filterMap fun i => (gaugeAt gauges (poly.getD i ⟨0, 0⟩)).map fun j => ⟨i, j, poly.getD i ⟨0, 0⟩⟩

/-- `gauge_neighbour_id`, `file_function.py` 404-415; `none` is -1. `n` is the number of vertices of the polygon. -/
def neighbours (n : ℕ) (ids : List ℕ) : List (Option ℕ) :=
  (List.range ids.length).map fun i =>
    if i + 1 < ids.length then
      if ids.getD i 0 + 1 = ids.getD (i + 1) 0 then some (i + 1) else none
    else
      if ids.getD i 0 + 1 = n ∧ ids.getD 0 0 = 0 then some 0 else none

/-- `len(num.compress(gauge_neighbour_id>=0, gauge_neighbour_id)) != len(temp)-1`, `file_function.py` 418-421. -/
def wrongSegments (neigh : List (Option ℕ)) : Bool := decide ((neigh.filter Option.isSome).length + 1 ≠ neigh.length)

/-- `dist`, `polygon.c` 22-26. -/
def dist (sq : K → K) (x y : K) : K := sq (x * x + y * y)

/-- The body of the loop over the nodes, `polygon.c` 286-315, for one point: the value so far replaced if the point is on the segment from node
`j` to its neighbour. -/
def segStep (sq : K → K) (nodes : List (Pt K)) (neigh : List (Option ℕ)) (data : List K) (p : Pt K) (v : K) (j : ℕ) : K :=
  match neigh.getD j none with
  | none => v
  | some n =>
    let a := nodes.getD j ⟨0, 0⟩
    let b := nodes.getD n ⟨0, 0⟩
    let slope := (data.getD n 0 - data.getD j 0) / dist sq (b.x - a.x) (b.y - a.y)
    if onLine (1 / 10 ^ 6) (1 / 10 ^ 8) p a b then slope * dist sq (p.x - a.x) (p.y - a.y) + data.getD j 0 else v

/-- `interpolate_polyline` for one point and two or more nodes, `polygon.py` 1069-1129: the values are zeros to begin with. -/
def polyline (sq : K → K) (nodes : List (Pt K)) (neigh : List (Option ℕ)) (data : List K) (p : Pt K) : K :=
  (List.range nodes.length).foldl (segStep sq nodes neigh data p) 0

/-- `num.take(quantities[name], gauge_id, axis=1)`, `file_function.py` 459-461; an array without time has no second axis. -/
def takeCols (ids : List ℕ) : Var K → Option (List (List K))
  | .one _ => none
  | .two rows => rows.mapM fun r => ids.mapM fun j => r[j]?

/-- `Interpolation_function(...)` without triangles, `interpolate.py` 754-1005: `nodes`, `neigh` and `vals` (time, node) are those left by the
boundary polygon. -/
def make (sq : K → K) (time : List K) (vals : List (List (List K))) (nodes : List (Pt K)) (neigh : List (Option ℕ)) (pts : Option (List (Pt K)))
    (n : ℕ) (start : K) : Except Err (Fn K) :=
  if monotone time = false then .error .decreasing
  else
    let t := thin n time
    match pts with
    | none => .ok ⟨t, 0, .raw true (vals.map .two), start⟩
    | some ps =>
      if nodes.length = 1 then .error .onePoint
      else .ok ⟨t, 0, .points ((List.range t.length).map fun i => vals.map fun v => ps.map fun p =>
        .num (polyline sq nodes neigh (v.getD (i * n) []) p)), start⟩

/-- `get_netcdf_file_function` for a file of gauges, `file_function.py` 231-497. `poly` is `boundary_polygon` (absolute). Without it the
neighbours are `None`, of which no array of integers can be made (`polygon.py` 1103). -/
def openGauges (sq : K → K) (f : File K) (names : List String) (domainStart : Option K) (o : Opts K) (poly : Option (List (Pt K))) :
    Except Err (Fn K) :=
  if names = [] then .error .noQuantities
  else
    match f.time, names.mapM f.vars with
    | some time, some vals =>
      match f.coords with
      | none => .error .notSpatial
      | some x =>
        let time := if o.relative then time else time.map (· + f.starttime)
        if time = [] then .error .noTime
        else
          let time := limited f.starttime o.limit time
          if time = [] then .error .noTime
          else
            match poly with
            | none =>
              if monotone (movedBack f.starttime domainStart time) = false then .error .decreasing
              else if o.points.isSome then .error .noPolygon
              else .ok ⟨thin o.thinning (movedBack f.starttime domainStart time), 0, .raw true vals, f.starttime⟩
            | some poly =>
              let sel := select x (poly.map (relTo f.corner))
              let neigh := neighbours poly.length (sel.map (·.boundary))
              if sel = [] then .error .noGauge
              else if wrongSegments neigh then .error .segments
              else
                match vals.mapM (takeCols (sel.map (·.gauge))) with
                | none => .error .shape
                | some vs =>
                  make sq (movedBack f.starttime domainStart time) vs (sel.map (·.pos)) neigh (o.points.map fun ps => ps.map (relTo f.corner))
                    o.thinning f.starttime
    | _, _ => .error .missing

end Verif.Sts
