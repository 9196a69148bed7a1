import Verif.FileFn.Model
import Mathlib.Data.List.Infix
import Mathlib.Data.List.Sort

/-!
# Model of series at gauges

Sources
* `/repo/anuga/abstract_2d_finite_volumes/gauge.py` 30-80 (`_quantities2csv`), 82-266 (`sww2csv_gauges`);
* `/repo/anuga/utilities/file_utils.py` 201-235 (`get_all_swwfiles`);
* `/repo/anuga/fit_interpolate/interpolate.py` 444-489 (list of centroids), 526-700 (`CSV_files`, `interpolate_sww2csv`).

Simplifications: exact field; square root and bearing are parameters (`calc_bearing` itself is modelled in `Bearing`). A directory is a list of
named files, a csv file is the list of its rows below the heading, which is the same for all. Numbers are not converted to text. After an exception
the files written so far are not looked at. The list of centroids is that of less than 500000 points (one block).
-/

namespace Verif.Gauge

open Verif.Polygon (Pt inAndOutside)
open Verif.Interp (Mesh)
open Verif.FileFn (File Fn Cell Err Opts fileFunction)

variable {K : Type*} [Field K] [LinearOrder K]

/-! ## The file of gauges -/

/-- `s.strip()`. -/
def strip (s : String) : String :=
  String.ofList (((s.toList.dropWhile Char.isWhitespace).reverse.dropWhile Char.isWhitespace).reverse)

/-- The last column with the given heading, `gauge.py` 165-169. -/
def lastCol (s : String) (row : List String) : Option ℕ :=
  (List.range row.length).foldl (fun acc j => if strip (row.getD j "") = s then some j else acc) none

/-- One row below the heading, 172-173; `none` is an exception. -/
def readRow (num : String → Option K) (easting northing name : Option ℕ) (row : List String) : Option (String × Pt K) :=
  match (easting.bind fun j => row[j]?).bind num, (northing.bind fun j => row[j]?).bind num, name.bind fun j => row[j]? with
  | some x, some y, some s => some (s, ⟨x, y⟩)
  | _, _, _ => none

/-- Names and positions of the gauges, 157-173. -/
def readGauges (num : String → Option K) : List (List String) → Option (List (String × Pt K))
  | [] => some []
  | head :: rows => rows.mapM (readRow num (lastCol "easting" head) (lastCol "northing" head) (lastCol "name" head))

/-! ## The result files -/

/-- `x[:-4]`. -/
def stem (x : String) : List Char := x.toList.take (x.toList.length - 4)

/-- `get_all_swwfiles`, `file_utils.py` 228-231: files that contain the base name and end with `.sww`. -/
def allSww (base : String) (dir : List (String × File K)) : List (String × File K) :=
  dir.filter fun x => decide (base.toList <:+: x.1.toList) && decide (".sww".toList <:+ x.1.toList)

/-- The sorted list, `gauge.py` 200. -/
def sortedSww (base : String) (dir : List (String × File K)) : List (String × File K) :=
  (allSww base dir).insertionSort fun a b => stem a.1 ≤ stem b.1

/-! ## Columns -/

/-- Centroids of the triangles found, `interpolate.py` 444-481, relative to the corner of the file. -/
def centroids (sq : K → K) (m : Mesh K) (node : ℕ → Pt K) (pts : List (Pt K)) : List (Pt K) :=
  (inAndOutside sq true pts m.boundary).1.filterMap fun i => pts[i]?.bind fun x =>
    let r := Verif.Quad.searchFast sq m.tree x
    if r.1 then
      let js := m.tri r.2.2
      some ⟨((node js.1).x + (node js.2.1).x + (node js.2.2).x) / 3, ((node js.1).y + (node js.2.1).y + (node js.2.2).y) / 3⟩
    else none

/-- The entries for one quantity, `gauge.py` 33-78; `none` is an `IndexError`. -/
def column (sq : K → K) (bear : K → K → Cell K) (cents : List (Pt K)) (i : ℕ) (w z uh vh : K) (s : String) : Option (List (Cell K)) :=
  if s = "stage" then some [.num w]
  else if s = "elevation" then some [.num z]
  else if s = "xmomentum" then some [.num uh]
  else if s = "ymomentum" then some [.num vh]
  else if s = "depth" then some [.num (w - z)]
  else if s = "momentum" then some [.num (sq (uh ^ 2 + vh ^ 2))]
  else if s = "speed" then
    some [.num (if w - z < 1 / 1000 then 0 else if uh < 10 ^ 6 then sq (uh ^ 2 + vh ^ 2) / (w - z) else 0)]
  else if s = "bearing" then some [bear uh vh]
  else if s = "xcentroid" then cents[i]?.map fun c => [.num c.x]
  else if s = "ycentroid" then cents[i]?.map fun c => [.num c.y]
  else some []

/-- `_quantities2csv`, `gauge.py` 30-80. -/
def columns (sq : K → K) (bear : K → K → Cell K) (cents : List (Pt K)) (i : ℕ) (w z uh vh : K) : List String → Option (List (Cell K))
  | [] => some []
  | s :: ss =>
    match column sq bear cents i w z uh vh s, columns sq bear cents i w z uh vh ss with
    | some c, some cs => some (c ++ cs)
    | _, _ => none

/-! ## Writing -/

/-- The directory of csv files (rows below the heading, `none` if there is no such file) and the gauges whose file has been opened. -/
structure Out (K : Type*) where
  csv : String → Option (List (List (Cell K)))
  opened : ℕ → Bool

/-- A row for gauge `i`, `gauge.py` 242-258: the first one starts the file anew, later ones are appended. -/
def Out.write (o : Out K) (i : ℕ) (name : String) (row : List (Cell K)) : Out K :=
  let rows := if o.opened i then (o.csv name).getD [] ++ [row] else [row]
  ⟨fun s => if s = name then some rows else o.csv s, fun j => if j = i then true else o.opened j⟩

/-- What is exported: names of the columns, square root, bearing. -/
structure Cols (K : Type*) where
  names : List String
  sq : K → K
  bear : K → K → Cell K

/-- One time at one gauge, `gauge.py` 235-262. -/
def oneTime (q : Cols K) (cents : List (Pt K)) (offset : K) (i : ℕ) (name : String) (F : Fn K) (o : Out K) (t : K) : Except Err (Fn K × Out K) :=
  match F.call t (some i) with
  | .error e => .error e
  | .ok (F, .inf :: _) => .ok (F, o)
  | .ok (F, [.num w, .num z, .num uh, .num vh]) =>
    match columns q.sq q.bear cents i w z uh vh q.names with
    | none => .error .crash
    | some c => .ok (F, o.write i name (.num (t + offset) :: .num ((t + offset) / 3600) :: c))
  | .ok _ => .error .crash

/-- The loop over the times, 234. -/
def overTimes (q : Cols K) (cents : List (Pt K)) (offset : K) (i : ℕ) (name : String) : Fn K → Out K → List K → Except Err (Fn K × Out K)
  | F, o, [] => .ok (F, o)
  | F, o, t :: ts =>
    match oneTime q cents offset i name F o t with
    | .error e => .error e
    | .ok (F, o) => overTimes q cents offset i name F o ts

/-- The loop over the gauges from number `i` on, 233. -/
def overGauges (q : Cols K) (cents : List (Pt K)) (offset : K) (times : List K) : ℕ → Fn K → Out K → List String → Except Err (Out K)
  | _, _, o, [] => .ok o
  | i, F, o, g :: gs =>
    match overTimes q cents offset i g F o times with
    | .error e => .error e
    | .ok (F, o) => overGauges q cents offset times (i + 1) F o gs

/-- The four quantities read from the files, 213. -/
def core : List String := ["stage", "elevation", "xmomentum", "ymomentum"]

/-- `callable_sww.centroids`: empty unless centroids are asked for. -/
def centsOf (sq : K → K) (mk : List (Pt K) → List (ℕ × ℕ × ℕ) → Option (Mesh K)) (cen : Bool) (f : File K) (pts : List (Pt K)) : List (Pt K) :=
  match cen, f.coords, mk (f.coords.getD []) f.tris with
  | true, some x, some m => centroids sq m (fun j => x.getD j ⟨0, 0⟩) (pts.map (Verif.FileFn.relTo f.corner))
  | _, _, _ => []

/-- The loop over the files, 222-262; `offset` is `quake_offset_time`. -/
def overFiles (sq : K → K) (mk : List (Pt K) → List (ℕ × ℕ × ℕ) → Option (Mesh K)) (q : Cols K) (cen : Bool) (gauges : List (String × Pt K)) :
    Option K → Out K → List (File K) → Except Err (Out K)
  | _, o, [] => .ok o
  | offset, o, f :: fs =>
    match fileFunction sq mk f none (some core) { points := some (gauges.map Prod.snd), centroids := cen } with
    | .error e => .error e
    | .ok (F, _) =>
      let off := offset.getD F.starttime
      match overGauges q (centsOf sq mk cen f (gauges.map Prod.snd)) off F.time 0 F o (gauges.map Prod.fst) with
      | .error e => .error e
      | .ok o => overFiles sq mk q cen gauges (some off) o fs

/-- `sww2csv_gauges`, `gauge.py` 82-266, from the gauges read and the files of the directory; `csv` are the csv files there before. -/
def sww2csv (sq : K → K) (mk : List (Pt K) → List (ℕ × ℕ × ℕ) → Option (Mesh K)) (q : Cols K) (cen : Bool) (gauges : List (String × Pt K))
    (base : String) (dir : List (String × File K)) (csv : String → Option (List (List (Cell K)))) : Except Err (Out K) :=
  match sortedSww base dir with
  | [] => .error .missing
  | fs => overFiles sq mk { q with names := q.names.map String.toLower } cen gauges none ⟨csv, fun _ => false⟩ (fs.map Prod.snd)

/-! ## `interpolate_sww2csv` -/

/-- Velocity component, `interpolate.py` 655-670; `epsilon = 1.0e-12`. Comparisons with not-a-number are false. -/
def velocity : Cell K → Cell K → Cell K → Cell K
  | .inf, _, _ => .inf
  | _, .inf, _ => .inf
  | _, _, .inf => .inf
  | .num w, .num z, .num m => .num (if w - z > 1 / 10 ^ 12 then m / (w - z) else 0)
  | .num w, .num z, .nan => if w - z > 1 / 10 ^ 12 then .nan else .num 0
  | _, _, _ => .num 0

/-- Depth `w - z` of floats, 652: infinity minus infinity is not a number. -/
def depth : Cell K → Cell K → Cell K
  | .num w, .num z => .num (w - z)
  | .inf, .num _ => .inf
  | _, _ => .nan

/-- The rows of the depth and velocity files: one per time, one column per point after the time, 636-690. -/
def rowsAt (t : K) : Fn K → List ℕ → Except Err (Fn K × List (Cell K × Cell K × Cell K))
  | F, [] => .ok (F, [])
  | F, i :: is =>
    match F.call t (some i) with
    | .error e => .error e
    | .ok (F, [w, z, uh, vh]) =>
      match rowsAt t F is with
      | .error e => .error e
      | .ok (F, r) => .ok (F, (depth w z, velocity w z uh, velocity w z vh) :: r)
    | .ok _ => .error .crash

/-- The three files, 637-693. -/
def threeFiles (n : ℕ) : Fn K → List K → Except Err (List (List (Cell K) × List (Cell K) × List (Cell K)))
  | _, [] => .ok []
  | F, t :: ts =>
    match rowsAt t F (List.range n) with
    | .error e => .error e
    | .ok (F, r) =>
      match threeFiles n F ts with
      | .error e => .error e
      | .ok rs => .ok ((.num t :: r.map (·.1), .num t :: r.map (·.2.1), .num t :: r.map (·.2.2)) :: rs)

/-- `interpolate_sww2csv`, `interpolate.py` 589-697. With a file for stage or Froude numbers `write_headings` fails, since `CSV_files.__init__`
(561-564) does not keep their writers (`AttributeError`). -/
def interpolateCsv (sq : K → K) (mk : List (Pt K) → List (ℕ × ℕ × ℕ) → Option (Mesh K)) (f : File K) (pts : List (Pt K)) (thinning : ℕ)
    (stageFile froudeFile : Bool) : Except Err (List (List (Cell K) × List (Cell K) × List (Cell K))) :=
  match fileFunction sq mk f none (some core) { points := some pts, thinning := thinning } with
  | .error e => .error e
  | .ok (F, _) => if stageFile || froudeFile then .error .crash else threeFiles pts.length F F.time

end Verif.Gauge
