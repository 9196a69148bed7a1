import Verif.Interp.Model

/-!
# Model of functions read from result files

Sources
* `/repo/anuga/abstract_2d_finite_volumes/file_function.py` 29-168 (`file_function`), 171-228 (`_file_function`), 231-497
  (`get_netcdf_file_function`);
* `/repo/anuga/fit_interpolate/interpolate.py` 754-1005 (`Interpolation_function.__init__`), 1012-1115 (`__call__`);
* `/repo/anuga/abstract_2d_finite_volumes/generic_boundary_conditions.py` 544-717 (`File_boundary`);
* `/repo/anuga/abstract_2d_finite_volumes/generic_domain.py` 598-619 (`get_time`), 1604-1617 (`set_starttime`).

Simplifications: exact field (`sqrt` a parameter). A file is given by its contents. Making the interpolator (`Interpolate`, `Mesh` and their
checks) is a parameter `mk`. Files `.sts` and the argument `boundary_polygon` are the subject of `Verif.Sts`. Caching is left out. An empty array of
values, of which `min` fails, is not considered. `NAN` of ANUGA is the float infinity (`numerical_tools.py` 15).
-/

namespace Verif.FileFn

open Verif.Polygon (Pt)
open Verif.Interp (Mesh Obj thin monotone goUp goDown)

variable {K : Type*} [Field K] [LinearOrder K]

/-- A variable of a file: an array with one index (node, or time in a `.tms` file) or with two (time, node). -/
inductive Var (K : Type*) where
  | one (v : List K)
  | two (v : List (List K))

/-- Extension of a file name. -/
inductive Ext where
  | sww | tms | sts | csv | other
  deriving DecidableEq, Repr

/-- The contents of a NetCDF file. `coords` is `none` if `x` or `y` is missing, `time` if there is no variable `time`. -/
structure File (K : Type*) where
  ext : Ext
  starttime : K
  time : Option (List K)
  corner : Pt K
  coords : Option (List (Pt K))
  tris : List (ℕ × ℕ × ℕ)
  vars : String → Option (Var K)

/-- Exceptions. -/
inductive Err where
  | notNetCDF
  | noQuantities
  | missing
  | spatialTms
  | notSpatial
  | noTime
  | decreasing
  | mesh
  | shape
  | crash
  | evolved
  | needPoint
  | early
  | late
  | nan
  deriving DecidableEq, Repr

/-- A float: a number, infinity (`NAN` of ANUGA) or the float not-a-number. -/
inductive Cell (K : Type*) where
  | num (v : K)
  | inf
  | nan
  deriving DecidableEq, Repr

/-- `Q0 + ratio*(Q1 - Q0)` for a positive ratio, but `Q0` if both are `NAN`, `interpolate.py` 1086-1090. -/
def mix (ratio : K) : Cell K → Cell K → Cell K
  | .num a, .num b => .num (a + ratio * (b - a))
  | .inf, .inf => .inf
  | .num _, .inf => .inf
  | _, _ => .nan

/-- What is kept for a call: values at the points (time, quantity, point), or the arrays of the file. -/
inductive Pre (K : Type*) where
  | points (tab : List (List (List (Cell K))))
  | raw (spatial : Bool) (vals : List (Var K))

/-- An `Interpolation_function`, with the start time that `file_function` adds. -/
structure Fn (K : Type*) where
  time : List K
  index : ℕ
  pre : Pre K
  starttime : K

/-- A value of `interpolate`: `none` is `NODATA_value`, here `NAN`. -/
def cell : Option K → Cell K
  | some v => .num v
  | none => .inf

/-- `quantities[name]` after thinning, `interpolate.py` 812-815: only arrays with two indices. -/
def Var.thin (n : ℕ) : Var K → Var K
  | .one v => .one v
  | .two v => .two (thinRows n v)
where
  /-- `l[::n]` for rows. -/
  thinRows (n : ℕ) (l : List (List K)) : List (List K) :=
    (List.range ((l.length + n - 1) / n)).map fun i => l.getD (i * n) []

/-- `Q` at time number `i`, `interpolate.py` 932-935. -/
def Var.row (i : ℕ) : Var K → Option (List K)
  | .one v => some v
  | .two v => v[i]?

/-- The loop over the quantities at one time, `interpolate.py` 931-959; the interpolator is passed on. -/
def atTime (sq : K → K) (pts : List (Pt K)) (L : ℕ) (c : Bool) (i : ℕ) : Obj K → List (Var K) → Except Err (Obj K × List (List (Cell K)))
  | o, [] => .ok (o, [])
  | o, q :: qs =>
    match q.row i with
    | none => .error .crash
    | some f =>
      match o.interpolate sq f (some pts) L c with
      | (_, none) => .error .shape
      | (o, some z) =>
        match atTime sq pts L c i o qs with
        | .error e => .error e
        | .ok (o, r) => .ok (o, z.map cell :: r)

/-- The loop over the times, `interpolate.py` 925-959. -/
def overTimes (sq : K → K) (pts : List (Pt K)) (L : ℕ) (c : Bool) (qs : List (Var K)) : Obj K → List ℕ →
    Except Err (List (List (List (Cell K))))
  | _, [] => .ok []
  | o, i :: is =>
    match atTime sq pts L c i o qs with
    | .error e => .error e
    | .ok (o, r) =>
      match overTimes sq pts L c qs o is with
      | .error e => .error e
      | .ok rs => .ok (r :: rs)

/-- `Interpolation_function(...)` for a mesh or without spatial information, `interpolate.py` 754-1005. `coords` are the vertices and
triangles, `pts` the interpolation points; `500000` is the default of `start_blocking_len`. -/
def Fn.make (sq : K → K) (mk : List (Pt K) → List (ℕ × ℕ × ℕ) → Option (Mesh K)) (time : List K) (vals : List (Var K))
    (coords : Option (List (Pt K) × List (ℕ × ℕ × ℕ))) (pts : Option (List (Pt K))) (n : ℕ) (c : Bool) (start : K) : Except Err (Fn K) :=
  if monotone time = false then .error .decreasing
  else
    let t := thin n time
    let vs := vals.map (Var.thin n)
    match pts with
    | none => .ok ⟨t, 0, .raw coords.isSome vs, start⟩
    | some p =>
      match coords with
      | none => .error .mesh
      | some (x, tri) =>
        match mk x tri with
        | none => .error .mesh
        | some m =>
          match overTimes sq p 500000 c vs (Obj.new m) (List.range t.length) with
          | .error e => .error e
          | .ok tab => .ok ⟨t, 0, .points tab, start⟩

/-- `Q[index]` for a value without space, 1073-1077; `none` is a failed assertion or `IndexError`. -/
def rawAt (i : ℕ) : Var K → Option K
  | .one v => v[i]?
  | .two _ => none

/-- The values at a time slot: all quantities, at point `p` if there are points. -/
def Pre.at (p : Option ℕ) (i : ℕ) : Pre K → Option (List (Cell K))
  | .points tab =>
    match p, tab[i]? with
    | some p, some r => r.mapM fun q => q[p]?
    | _, _ => none
  | .raw _ vals => vals.mapM fun v => (rawAt i v).map .num

/-- The part of a call after the checks of the arguments, `interpolate.py` 1043-1095. -/
def Fn.answer (f : Fn K) (t : K) (p : Option ℕ) : Except Err (Fn K × List (Cell K)) :=
  match f.time.head?, f.time.getLast? with
  | some t0, some t1 =>
    if t < t0 then .error .early
    else if t > t1 then .error .late
    else
      match goUp t f.time (f.time.length + 1) f.index with
      | none => .error .crash
      | some i =>
        match goDown t f.time i with
        | none => .error .crash
        | some i =>
          match f.time[i]?, f.pre.at p i with
          | some ti, some q0 =>
            if t = ti then .ok ({ f with index := i }, q0)
            else
              match f.time[i + 1]?, f.pre.at p (i + 1) with
              | some tj, some q1 =>
                let ratio := (t - ti) / (tj - ti)
                if ratio > 0 then .ok ({ f with index := i }, List.zipWith (mix ratio) q0 q1) else .ok ({ f with index := i }, q0)
              | _, _ => .error .crash
          | _, _ => .error .crash
  | _, _ => .error .crash

/-- `f(t, point_id)`, `interpolate.py` 1012-1115. A function with neither space nor vectors `x`, `y` returns the vector itself. -/
def Fn.call (f : Fn K) (t : K) (p : Option ℕ) : Except Err (Fn K × List (Cell K)) :=
  match f.pre, p with
  | .raw true _, _ => .error .needPoint
  | .points _, none => .error .needPoint
  | _, _ => f.answer t p

/-- Options of `file_function` (`boundary_polygon` and caching apart). -/
structure Opts (K : Type*) where
  points : Option (List (Pt K)) := none
  relative : Bool := true
  thinning : ℕ := 1
  limit : Option K := none
  centroids : Bool := false

/-- The times up to the limit, `file_function.py` 325-351: the first one above it ends them. -/
def upTo (limit : K) : List K → List K
  | [] => []
  | t :: ts => if t > limit then [] else t :: upTo limit ts

/-- The time limit, if any, relative to the start of the file. -/
def limited (start : K) (limit : Option K) (time : List K) : List K :=
  match limit with
  | none => time
  | some l => upTo (l - start) time

/-- Times moved back to the start of a domain that starts later, `file_function.py` 432-436. -/
def movedBack (start : K) (d : Option K) (time : List K) : List K :=
  match d with
  | none => time
  | some d => if d > start then time.map fun t => t - d + start else time

/-- A point relative to the corner of the file, `file_function.py` 425-428. -/
def relTo (c p : Pt K) : Pt K := ⟨p.x - c.x, p.y - c.y⟩

/-- `get_netcdf_file_function`, `file_function.py` 231-497. -/
def open' (sq : K → K) (mk : List (Pt K) → List (ℕ × ℕ × ℕ) → Option (Mesh K)) (f : File K) (names : List String) (domainStart : Option K)
    (o : Opts K) : Except Err (Fn K) :=
  if names = [] then .error .noQuantities
  else
    match f.time, names.mapM f.vars with
    | some time, some vals =>
      if f.ext = .tms ∧ f.coords.isSome = true then .error .spatialTms
      else if f.ext = .sww ∧ f.coords.isSome = false then .error .notSpatial
      else
        let time := if o.relative then time else time.map (· + f.starttime)
        if time = [] then .error .noTime
        else
          let time := limited f.starttime o.limit time
          if time = [] then .error .noTime
          else
            let time := movedBack f.starttime domainStart time
            match f.coords with
            | none => Fn.make sq mk time vals none none o.thinning o.centroids f.starttime
            | some x => Fn.make sq mk time vals (some (x, f.tris)) (o.points.map fun ps => ps.map (relTo f.corner)) o.thinning o.centroids f.starttime
    | _, _ => .error .missing

/-- The times of a domain: `starttime`, `relative_time`, `evolved_called`. -/
structure Clock (K : Type*) where
  start : K
  rel : K
  evolved : Bool

/-- `get_time`, `generic_domain.py` 616-619. -/
def Clock.now (c : Clock K) : K := c.start + c.rel

/-- `set_starttime`, `generic_domain.py` 1607-1617. -/
def Clock.setStart (c : Clock K) (s : K) : Except Err (Clock K) := if c.evolved then .error .evolved else .ok { c with start := s, rel := 0 }

/-- `file_function` with a file of extension `sww` or `tms`, `file_function.py` 29-168 and 171-228: the function and the clock of the domain
afterwards. -/
def fileFunction (sq : K → K) (mk : List (Pt K) → List (ℕ × ℕ × ℕ) → Option (Mesh K)) (f : File K) (clock : Option (Clock K))
    (names : Option (List String)) (o : Opts K) : Except Err (Fn K × Option (Clock K)) :=
  if f.ext = .csv ∨ f.ext = .other then .error .notNetCDF
  else
    match open' sq mk f (names.getD ["stage", "xmomentum", "ymomentum"]) (clock.map (·.start)) o with
    | .error e => .error e
    | .ok F =>
      match clock with
      | none => .ok (F, none)
      | some c =>
        if f.starttime > c.start then
          match c.setStart f.starttime with
          | .error e => .error e
          | .ok c => .ok (F, some c)
        else .ok (F, some c)

/-- `File_boundary(filename, domain, ...)`, `generic_boundary_conditions.py` 544-651: `mid` are the midpoints (absolute) of all boundary
edges, in the order of `boundary_indices`; the function is tried at time 0 and the first point. -/
def fileBoundary (sq : K → K) (mk : List (Pt K) → List (ℕ × ℕ × ℕ) → Option (Mesh K)) (f : File K) (clock : Clock K) (names : List String)
    (mid : List (Pt K)) (thinning : ℕ) (limit : Option K) : Except Err (Fn K × Clock K) :=
  match fileFunction sq mk f (some clock) (some names) { points := some mid, thinning := thinning, limit := limit } with
  | .error e => .error e
  | .ok (_, none) => .error .crash
  | .ok (F, some c) =>
    match F.call 0 (some 0) with
    | .error e => .error e
    | .ok (F, q) => if q.length = names.length then .ok (F, c) else .error .shape

/-- `File_boundary.evaluate` for edge number `i`, 658-717; `other` is the value of the default boundary if there is one. -/
def evaluate (F : Fn K) (c : Clock K) (i : ℕ) (other : Option (List (Cell K))) : Except Err (Fn K × List (Cell K)) :=
  match F.call c.now (some i) with
  | .error .late =>
    match other with
    | none => .error .late
    | some r => if Cell.inf ∈ r then .error .nan else .ok (F, r)
  | .error e => .error e
  | .ok (F, r) => if Cell.inf ∈ r then .error .nan else .ok (F, r)

end Verif.FileFn
