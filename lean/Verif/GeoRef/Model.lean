import Verif.Polygon.Model
import Mathlib.Data.List.Sort

/-!
# Model of geo references and of geo referenced point sets

Sources
* `/repo/anuga/coordinate_transforms/geo_reference.py` 53-112 (`__init__`), 143-167 (`set_zone`, `set_hemisphere`),
  169-233 (NetCDF), 250-292 (ASCII), 297-346 (`change_points_geo_ref`), 370-438 (`get_absolute`, `get_relative`),
  440-471 (`reconcile_zones`)
* `/repo/anuga/geospatial_data/geospatial_data.py` 130-161 (`__init__`), 235-262 (`set_geo_reference`), 274-331 (`clip`,
  `clip_outside`), 336-377 (`get_data_points`), 410-473 (`__add__`), 573-596 (`get_sample`), 598-695 (`split`)

Simplifications
* exact ordered field; `allclose` keeps its default tolerance `1e-8`;
* a point argument is one vector or an array with two columns; arrays of another width are rejected by all three
  conversions and left out;
* object identity (`points_geo_ref is not self`) is a flag passed beside the two references;
* the warnings logged by `read_NetCDF` and latitude/longitude output are left out;
* the numbers drawn by `split` are an argument.
-/

namespace Verif.GeoRef

open Verif.Polygon (Pt)

variable {K : Type*} [Field K] [LinearOrder K]

/-- Hemisphere strings, `geo_reference.py` 162-167. -/
inductive Hemi where
  | southern
  | northern
  | undefined
  deriving DecidableEq, Repr

/-- Exceptions that can be raised. -/
inductive Err where
  | assertion
  | shape
  | type
  | index
  | value
  | anuga
  | exception
  deriving DecidableEq, Repr

/-- Attributes of a `Geo_reference`, with the stored flag `absolute`. -/
structure Ref (K : Type*) where
  zone : ℤ
  hemi : Hemi
  falseEasting : ℤ
  falseNorthing : ℤ
  datum : String
  projection : String
  units : String
  x : K
  y : K
  absolute : Bool
  deriving DecidableEq

/-- `DEFAULT_ZONE`, `geo_reference.py` 23. -/
def defaultZone : ℤ := -1

/-- `num.allclose([x, y], 0)`, lines 112 and 210: every entry at most `atol = 1e-8` in absolute value. -/
def nearZero (x y : K) : Bool := decide (|x| ≤ 1 / 10 ^ 8) && decide (|y| ≤ 1 / 10 ^ 8)

/-- `Geo_reference(zone, x, y, hemisphere=…)`, lines 53-112, with the check of `set_zone` (143-150); the other attributes
have their defaults (27-32). -/
def make (zone : ℤ) (x y : K) (hemi : Hemi) : Except Err (Ref K) :=
  if zone = -1 ∨ zone ≥ 1 ∧ zone ≤ 60 then
    .ok ⟨zone, hemi, 500000, 10000000, "wgs84", "UTM", "m", x, y, nearZero x y⟩
  else .error .assertion

/-- `Geo_reference()`. -/
def default : Ref K := ⟨defaultZone, .undefined, 500000, 10000000, "wgs84", "UTM", "m", 0, 0, nearZero (0 : K) 0⟩

/-- A point argument: a vector or an array with two columns. -/
inductive Input (K : Type*) where
  | one (l : List K)
  | many (ps : List (Pt K))
  deriving DecidableEq

/-- Adding the origin to a row, lines 395-396. -/
def addOrigin (g : Ref K) (p : Pt K) : Pt K := ⟨p.x + g.x, p.y + g.y⟩

/-- Subtracting the origin from a row, lines 432-433. -/
def subOrigin (g : Ref K) (p : Pt K) : Pt K := ⟨p.x - g.x, p.y - g.y⟩

/-- `get_absolute` of an array, lines 393-396. -/
def toAbs (g : Ref K) (ps : List (Pt K)) : List (Pt K) := if g.absolute then ps else ps.map (addOrigin g)

/-- `get_relative` of an array, lines 430-433. -/
def toRel (g : Ref K) (ps : List (Pt K)) : List (Pt K) := if g.absolute then ps else ps.map (subOrigin g)

/-- `get_absolute`, lines 370-402. For a vector the message at 387 formats a one-entry shape with two `%d`: `TypeError`. -/
def getAbsolute (g : Ref K) : Input K → Except Err (List (Pt K))
  | .one l => if l.length = 2 then .error .type else .error .shape
  | .many ps => .ok (toAbs g ps)

/-- `get_relative`, lines 404-438. For a vector `points.shape[1]` at 424 raises `IndexError`. -/
def getRelative (g : Ref K) : Input K → Except Err (List (Pt K))
  | .one l => if l.length = 2 then .error .index else .error .shape
  | .many ps => .ok (toRel g ps)

/-- One row of `change_points_geo_ref`, lines 331-341. -/
def changeRow (self : Ref K) (other : Option (Ref K)) (p : Pt K) : Pt K :=
  let q := match other with
    | none => p
    | some o => addOrigin o p
  subOrigin self q

/-- Array part of `change_points_geo_ref`, lines 331-341; `same` says that the two references are one object. -/
def change (self : Ref K) (other : Option (Ref K)) (same : Bool) (ps : List (Pt K)) : List (Pt K) :=
  if same then ps else ps.map (changeRow self other)

/-- `change_points_geo_ref`, lines 297-346; a vector becomes an array with one row (315-319). -/
def changePoints (self : Ref K) (other : Option (Ref K)) (same : Bool) : Input K → Except Err (List (Pt K))
  | .one [x, y] => .ok (change self other same [⟨x, y⟩])
  | .one _ => .error .assertion
  | .many ps => .ok (change self other same ps)

/-! ## Files -/

/-- Attributes in a NetCDF file, lines 175-185. Old files have no hemisphere (195-199). -/
structure NcFile (K : Type*) where
  x : K
  y : K
  zone : ℤ
  hemi : Option Hemi
  falseEasting : ℤ
  falseNorthing : ℤ
  datum : String
  projection : String
  units : String

/-- `write_NetCDF`, lines 169-185. -/
def writeNetCDF (g : Ref K) : NcFile K :=
  ⟨g.x, g.y, g.zone, some g.hemi, g.falseEasting, g.falseNorthing, g.datum, g.projection, g.units⟩

/-- `read_NetCDF` into the object `g`, lines 187-210; every attribute is overwritten and the flag recomputed. -/
def readNetCDF (_g : Ref K) (f : NcFile K) : Ref K :=
  { x := f.x, y := f.y, zone := f.zone, hemi := f.hemi.getD .undefined, falseEasting := f.falseEasting,
    falseNorthing := f.falseNorthing, datum := f.datum, projection := f.projection, units := f.units,
    absolute := nearZero f.x f.y }

/-- Lines of the text written by `write_ASCII` after the title, lines 250-259. -/
structure AscFile (K : Type*) where
  zone : ℤ
  x : K
  y : K

/-- `write_ASCII`, lines 250-259. -/
def writeASCII (g : Ref K) : AscFile K := ⟨g.zone, g.x, g.y⟩

/-- `read_ASCII` into the object `g`, lines 261-292: the stored flag is left as it is. -/
def readASCII (g : Ref K) (f : AscFile K) : Ref K := { g with zone := f.zone, x := f.x, y := f.y }

/-- `Geo_reference(ASCIIFile=…)`, lines 106-112: the flag is computed after reading. -/
def fromASCII (f : AscFile K) : Ref K :=
  let g := readASCII default f
  { g with absolute := nearZero g.x g.y }

/-- `__eq__`, lines 114-133. -/
def eqRef (a b : Ref K) : Bool :=
  decide (a.falseEasting = b.falseEasting) && decide (a.falseNorthing = b.falseNorthing) && decide (a.datum = b.datum) &&
    decide (a.projection = b.projection) && decide (a.zone = b.zone) && decide (a.hemi = b.hemi) &&
    decide (a.units = b.units) && decide (a.x = b.x) && decide (a.y = b.y) && decide (a.absolute = b.absolute)

/-! ## Zones -/

/-- The zone part of `reconcile_zones`, lines 447-457: both objects afterwards, and whether it raises. -/
def reconcileZone (a b : Ref K) : (Ref K × Ref K) × Option Err :=
  if a.zone = b.zone then ((a, b), none)
  else if a.zone = defaultZone then (({ a with zone := b.zone }, b), none)
  else if b.zone = defaultZone then ((a, { b with zone := a.zone }), none)
  else ((a, b), some .anuga)

/-- The hemisphere part, lines 460-471. The message formats strings with `%d`, so what is raised is a `TypeError`. -/
def reconcileHemi (a b : Ref K) : (Ref K × Ref K) × Option Err :=
  if a.hemi = b.hemi then ((a, b), none)
  else if a.hemi = .undefined then (({ a with hemi := b.hemi }, b), none)
  else if b.hemi = .undefined then ((a, { b with hemi := a.hemi }), none)
  else ((a, b), some .type)

/-- `reconcile_zones`, lines 440-471: state of both objects when it returns or raises. -/
def reconcile (a b : Ref K) : (Ref K × Ref K) × Option Err :=
  match reconcileZone a b with
  | (s, some e) => (s, some e)
  | (s, none) => reconcileHemi s.1 s.2

/-- `a.reconcile_zones(None)`, lines 442-445. -/
def reconcileNone (a : Ref K) : Ref K × Option Err :=
  let r := reconcile a default
  (r.1.1, r.2)

/-! ## Point sets -/

/-- A `Geospatial_data` object. -/
structure Data (K : Type*) where
  pts : List (Pt K)
  attrs : Option (List (String × List K))
  ref : Ref K
  deriving DecidableEq

/-- `get_data_points(absolute=True)`, `geospatial_data.py` 370-371. -/
def Data.absPts (d : Data K) : List (Pt K) := toAbs d.ref d.pts

/-- `get_data_points(geo_reference=g)`, lines 372-374. -/
def Data.ptsIn (d : Data K) (g : Ref K) (same : Bool) : List (Pt K) := change g (some d.ref) same d.pts

/-- `set_geo_reference`, lines 235-262. -/
def Data.setRef (d : Data K) (g : Option (Ref K)) (same : Bool) : Data K :=
  match g with
  | none => { d with pts := d.ptsIn default false, ref := default }
  | some g => { d with pts := d.ptsIn g same, ref := g }

/-- Constructor with points and an optional reference, lines 139-161: `self.geo_reference` is set first (a fresh default when
none is given), then `set_geo_reference` with the same argument. -/
def build (pts : List (Pt K)) (attrs : Option (List (String × List K))) (g : Option (Ref K)) : Data K :=
  match g with
  | none => Data.setRef ⟨pts, attrs, default⟩ none false
  | some g => Data.setRef ⟨pts, attrs, g⟩ (some g) true

/-- The attribute loop of `__add__`, lines 447-456. -/
def addAttrs (other : Option (List (String × List K))) : List (String × List K) → Except Err (List (String × List K))
  | [] => .ok []
  | (k, v) :: rest =>
    match other with
    | none => .error .type
    | some o =>
      match o.lookup k with
      | none => .error .exception
      | some w =>
        match addAttrs other rest with
        | .error e => .error e
        | .ok r => .ok ((k, v ++ w) :: r)

/-- Attributes of a sum, lines 438-456. -/
def joinAttrs (a b : Option (List (String × List K))) : Except Err (Option (List (String × List K))) :=
  match a with
  | none => if b.isSome then .error .exception else .ok none
  | some l =>
    match addAttrs b l with
    | .error e => .error e
    | .ok r => .ok (some r)

/-- `a + b`, lines 426-467. The references of `a` and `b` are reconciled in place (first component of the result). -/
def add (a b : Data K) : (Data K × Data K) × Except Err (Data K) :=
  let r := reconcile a.ref b.ref
  let a' : Data K := { a with ref := r.1.1 }
  let b' : Data K := { b with ref := r.1.2 }
  match r.2 with
  | some e => ((a', b'), .error e)
  | none =>
    match joinAttrs a.attrs b.attrs with
    | .error e => ((a', b'), .error e)
    | .ok at' =>
      match make a'.ref.zone 0 0 .undefined with
      | .error e => ((a', b'), .error e)
      | .ok g => ((a', b'), .ok (build (a'.absPts ++ b'.absPts) at' (some g)))

/-- `a + None`, lines 457-467. -/
def addNone (a : Data K) : Except Err (Data K) :=
  match make a.ref.zone 0 0 .undefined with
  | .error e => .error e
  | .ok g => .ok (build a.absPts a.attrs (some g))

/-- `num.take(l, indices, axis=0)`: an index outside the array raises `IndexError` (negative indices are not modelled). -/
def takeAt {α : Type*} (l : List α) : List ℕ → Except Err (List α)
  | [] => .ok []
  | i :: is =>
    match l[i]? with
    | none => .error .index
    | some v =>
      match takeAt l is with
      | .error e => .error e
      | .ok r => .ok (v :: r)

/-- The loop over attributes in `get_sample`, lines 591-594. -/
def takeAttrs (idx : List ℕ) : List (String × List K) → Except Err (List (String × List K))
  | [] => .ok []
  | (k, v) :: rest =>
    match takeAt v idx with
    | .error e => .error e
    | .ok w =>
      match takeAttrs idx rest with
      | .error e => .error e
      | .ok r => .ok ((k, w) :: r)

/-- `get_sample`, lines 573-596: absolute points, no geo reference, and `{}` when there were no attributes. -/
def sample (d : Data K) (idx : List ℕ) : Except Err (Data K) :=
  match takeAt d.absPts idx with
  | .error e => .error e
  | .ok ps =>
    match takeAttrs idx (d.attrs.getD []) with
    | .error e => .error e
    | .ok at' => .ok (build ps (some at') none)

/-- `clip`, lines 274-304. -/
def clip (sq : K → K) (d : Data K) (poly : List (Pt K)) (closed : Bool) : Except Err (Data K) :=
  sample d (Verif.Polygon.insidePolygon sq closed d.absPts poly)

/-- `clip_outside`, lines 306-331. -/
def clipOutside (sq : K → K) (d : Data K) (poly : List (Pt K)) (closed : Bool) : Except Err (Data K) :=
  sample d (Verif.Polygon.outsidePolygon sq closed d.absPts poly)

/-- The loop popping indices, lines 662-668: the popped entries in order and what remains; `pop` beyond the end raises. -/
def popAll : List ℕ → List ℕ → Except Err (List ℕ × List ℕ)
  | [], rem => .ok ([], rem)
  | i :: is, rem =>
    match rem[i]? with
    | none => .error .index
    | some v =>
      match popAll is (rem.eraseIdx i) with
      | .error e => .error e
      | .ok (r, rest) => .ok (v :: r, rest)

/-- Sorting and reversing the drawn numbers, lines 654-655. -/
def descending (draws : List ℕ) : List ℕ := (draws.insertionSort (· ≤ ·)).reverse

/-- `split`, lines 598-695, for the numbers drawn by `randint(0, n-1, new_size)` (650), which lie in `0 … n-2`; the assertion
at 684 compares sorted lists. -/
def split (d : Data K) (draws : List ℕ) : Except Err (Data K × Data K) :=
  let n := d.pts.length
  if draws ≠ [] ∧ n ≤ 1 then .error .value
  else
    match popAll (descending draws) (List.range n) with
    | .error e => .error e
    | .ok (chosen, rest) =>
      if List.range n = (chosen ++ rest).insertionSort (· ≤ ·) then
        match sample d chosen, sample d rest with
        | .ok a, .ok b => .ok (a, b)
        | .error e, _ => .error e
        | _, .error e => .error e
      else .error .assertion

end Verif.GeoRef
