import Verif.GeoRef.Model

/-!
# `Polygon_function`

Model of `/repo/anuga/geometry/polygon_function.py` 45-133.

The arrays of the call are `pts_x`, `pts_y` (fresh copies of the arguments, 97-98), `points` (a fresh
copy of both, 105-107) and `result`.  If the default is a function, `result` is whatever array that
function returns, which may be one of the arrays it was given.

Simplifications: exact field; functions work entry by entry; the checks of the shape of the argument
`regions` and the final warning are left out.
-/

namespace Verif.PolyFun

open Verif.Polygon (Pt insidePolygon)
open Verif.GeoRef (Ref change)

variable {K : Type*} [Field K] [LinearOrder K]

/-- The second member of a region: a number or a function of `(x, y)`. -/
inductive Value (K : Type*)
  | const (c : K)
  | fn (f : K → K → K)

/-- The value for points outside all regions. -/
inductive Default (K : Type*)
  /-- a number -/
  | const (c : K)
  /-- a function that returns a new array -/
  | fresh (f : K → K → K)
  /-- a function that returns its first argument, such as `lambda x, y: x` -/
  | argX
  /-- a function that returns its second argument -/
  | argY

/-- The arrays during a call. -/
structure Arrays (K : Type*) where
  /-- `pts_x` -/
  x : List K
  /-- `pts_y` -/
  y : List K
  /-- `result` -/
  r : List K

/-- `result[i] = v`: also changes the coordinate array when it is the same object. -/
def Arrays.write (d : Default K) (a : Arrays K) (i : ℕ) (v : K) : Arrays K :=
  ⟨match d with | .argX => a.x.set i v | _ => a.x,
    match d with | .argY => a.y.set i v | _ => a.y, a.r.set i v⟩

/-- Value assigned at point `i`, lines 120-122 and 125. -/
def valueAt (a : Arrays K) (i : ℕ) : Value K → K
  | .const c => c
  | .fn f => f (a.x.getD i 0) (a.y.getD i 0)

/-- `result` before the regions, lines 109-112. -/
def initial (d : Default K) (xs ys : List K) : List K :=
  match d with
  | .const c => xs.map fun _ => c
  | .fresh f => xs.zipWith f ys
  | .argX => xs
  | .argY => ys

/-- One region, lines 114-125. -/
def paint (sq : K → K) (d : Default K) (pts : List (Pt K)) (a : Arrays K)
    (region : List (Pt K) × Value K) : Arrays K :=
  (insidePolygon sq true pts region.1).foldl (fun a i => a.write d i (valueAt a i region.2)) a

/-- `__init__`, lines 79-89: polygons relative to the geo reference (`Geo_reference()` if none). -/
def regions (g : Option (Ref K)) (rs : List (List (Pt K) × Value K)) : List (List (Pt K) × Value K) :=
  rs.map fun r => (change (g.getD GeoRef.default) none false r.1, r.2)

/-- `Polygon_function(regions, default, geo_reference)(x, y)`, lines 45-133; `none`: the lengths of
the arguments differ. -/
def call (sq : K → K) (rs : List (List (Pt K) × Value K)) (d : Default K) (g : Option (Ref K))
    (xs ys : List K) : Option (List K) :=
  if xs.length = ys.length then
    let pts := xs.zipWith Pt.mk ys
    some ((regions g rs).foldl (paint sq d pts) ⟨xs, ys, initial d xs ys⟩).r
  else none

end Verif.PolyFun
