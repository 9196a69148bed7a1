import Verif.Quad.Model
import Verif.Sparse.Model

/-!
# Model of interpolation from a mesh and in time

Sources
* `/repo/anuga/fit_interpolate/interpolate.py` 194-285 (`interpolate`), 288-363 (`interpolate_block`), 377-389 (`_get_point_data_z`), 392-487
  (`_build_interpolation_matrix_A`);
* the same file 754-1005 (`Interpolation_function.__init__`) and 1012-1115 (`__call__`).

Simplifications: exact field (`sqrt` a parameter); one column of data (columns of a matrix are treated alike); the boundary polygon of the
mesh is given; `use_cache` (which only avoids rebuilding the matrix) is left out; `NODATA_value` is `none`.
-/

namespace Verif.Interp

open Verif.Polygon (Pt inAndOutside)
open Verif.Sparse (Mat)

variable {K : Type*} [Field K] [LinearOrder K]

/-! ## In space -/

/-- What `FitInterpolate.__init__` keeps: number of nodes, nodes of each triangle, the tree of triangles, the boundary polygon. -/
structure Mesh (K : Type*) where
  nodes : ℕ
  tris : List (ℕ × ℕ × ℕ)
  tree : Verif.Quad.Tree K
  boundary : List (Pt K)

/-- `sigmas = {j0: sigma0, j1: sigma1, j2: sigma2}` looked up at `j`, `interpolate.py` 466: later entries replace earlier ones. -/
def sigmaOf (js : ℕ × ℕ × ℕ) (w : K × K × K) (j : ℕ) : K :=
  if j = js.2.2 then w.2.2 else if j = js.2.1 then w.2.1 else w.1

/-- Assignments to row `i` of the matrix for a point found in a triangle, `interpolate.py` 458-476. -/
def rowSets (centroids : Bool) (i : ℕ) (js : ℕ × ℕ × ℕ) (w : K × K × K) : List (ℕ × ℕ × K) :=
  [js.1, js.2.1, js.2.2].map fun j => (i, j, if centroids then 1 / 3 else sigmaOf js w j)

/-- `self.mesh.triangles[k]`. -/
def Mesh.tri (m : Mesh K) (k : ℤ) : ℕ × ℕ × ℕ := m.tris.getD k.toNat (0, 0, 0)

/-- The loop over the points inside the boundary polygon, `interpolate.py` 450-485: assignments to the matrix and points moved to the
outside list. -/
def buildLoop (sq : K → K) (m : Mesh K) (centroids : Bool) (pts : List (Pt K)) : List ℕ → List (ℕ × ℕ × K) × List ℕ
  | [] => ([], [])
  | i :: is =>
    let rest := buildLoop sq m centroids pts is
    match pts[i]? with
    | none => rest
    | some x =>
      let r := Verif.Quad.searchFast sq m.tree x
      if r.1 then (rowSets centroids i (m.tri r.2.2) r.2.1 ++ rest.1, rest.2) else (rest.1, i :: rest.2)

/-- A matrix and its outside list. -/
structure Built (K : Type*) where
  A : Mat K
  outside : List ℕ

/-- `_build_interpolation_matrix_A`, `interpolate.py` 392-487; `none` is an assignment outside the matrix. -/
def build (sq : K → K) (m : Mesh K) (centroids : Bool) (pts : List (Pt K)) : Option (Built K) :=
  let io := inAndOutside sq true pts m.boundary
  let s := buildLoop sq m centroids pts io.1
  (s.1.foldlM (fun (A : Mat K) e => A.set e.1 e.2.1 e.2.2) (Mat.empty pts.length m.nodes)).map fun A => ⟨A, io.2 ++ s.2⟩

/-- `_get_point_data_z`, `interpolate.py` 377-389. -/
def Built.apply (b : Built K) (f : List K) : Option (List (Option K)) :=
  (b.A.mulVec f).map fun z => (List.range z.length).map fun i => if i ∈ b.outside then none else z[i]?

/-- The `Interpolate` object: last matrix, `_A_can_be_reused`, `_point_coordinates`. -/
structure Obj (K : Type*) where
  mesh : Mesh K
  built : Option (Built K)
  reuse : Bool
  points : Option (List (Pt K))

/-- `Interpolate(...)`, `interpolate.py` 179-190. -/
def Obj.new (m : Mesh K) : Obj K := ⟨m, none, false, none⟩

/-- `interpolate_block`, `interpolate.py` 288-363: new object and values; `none` is an exception. The matrix is stored before the sizes
are compared (340-360). -/
def Obj.block (sq : K → K) (o : Obj K) (f : List K) (pts : List (Pt K)) (centroids : Bool) : Obj K × Option (List (Option K)) :=
  match build sq o.mesh centroids pts with
  | none => (o, none)
  | some b => ({ o with built := some b }, b.apply f)

/-- The blocks of `range(start_blocking_len, n, start_blocking_len)` and the last one, `interpolate.py` 271-284. -/
def chunks (L : ℕ) (pts : List (Pt K)) : List (List (Pt K)) :=
  if _h : 0 < L ∧ L < pts.length then pts.take L :: chunks L (pts.drop L) else [pts]
termination_by pts.length
decreasing_by simp <;> omega

/-- The loop over the blocks. -/
def Obj.blocks (sq : K → K) (f : List K) (centroids : Bool) : Obj K → List (List (Pt K)) → Obj K × Option (List (Option K))
  | o, [] => (o, some [])
  | o, b :: bs =>
    match o.block sq f b centroids with
    | (o, none) => (o, none)
    | (o, some z) =>
      match Obj.blocks sq f centroids o bs with
      | (o, none) => (o, none)
      | (o, some zs) => (o, some (z ++ zs))

/-- The second half of `interpolate`, `interpolate.py` 252-284. -/
def Obj.fresh (sq : K → K) (o : Obj K) (f : List K) (pts : List (Pt K)) (L : ℕ) (centroids : Bool) : Obj K × Option (List (Option K)) :=
  if pts.length < L ∨ L = 0 then Obj.block sq { o with points := some pts, reuse := true } f pts centroids
  else Obj.blocks sq f centroids { o with points := some pts, reuse := false } (chunks L pts)

/-- `interpolate`, `interpolate.py` 194-285. -/
def Obj.interpolate (sq : K → K) (o : Obj K) (f : List K) (pts : Option (List (Pt K))) (L : ℕ) (centroids : Bool) :
    Obj K × Option (List (Option K)) :=
  match pts with
  | some p => o.fresh sq f p L centroids
  | none =>
    match o.points with
    | none => (o, none)
    | some p =>
      if o.reuse = true ∧ p.length < L then (o, o.built.bind fun b => b.apply f)
      else o.fresh sq f p L centroids

/-! ## In time -/

/-- `Interpolation_function` as far as `__call__` reads it: times, the running index, and one array of values (at one point). -/
structure Series (K : Type*) where
  time : List K
  index : ℕ
  values : List K

/-- Exceptions of a call. -/
inductive TErr where
  | early
  | late
  | crash
  deriving DecidableEq, Repr

/-- The check of `__init__`: `num.all(time[1:] - time[:-1] >= 0)`. -/
def monotone (time : List K) : Bool := decide (List.IsChain (· ≤ ·) time)

/-- `l[::n]`. -/
def thin (n : ℕ) (l : List K) : List K :=
  match l with
  | [] => []
  | x :: xs => x :: thin n (xs.drop (n - 1))
termination_by l.length
decreasing_by simp <;> omega

/-- `Interpolation_function(time, quantities, time_thinning=n)`; `none` is an exception. The times are thinned, the values only if they
form a two dimensional array (time, node), that is in the spatial case (`values` are then those of one interpolation point). -/
def Series.make (spatial : Bool) (time values : List K) (n : ℕ) : Option (Series K) :=
  if monotone time then some ⟨thin n time, 0, if spatial then thin n values else values⟩ else none

/-- `while t > self.time[self.index]: self.index += 1`, 1053; the number of passes is bounded by the length. `none` is `IndexError`. -/
def goUp (t : K) (time : List K) : ℕ → ℕ → Option ℕ
  | 0, _ => none
  | n + 1, i =>
    match time[i]? with
    | none => none
    | some x => if t > x then goUp t time n (i + 1) else some i

/-- `while t < self.time[self.index]: self.index -= 1`, 1054. (Index `-1` would be the last entry; it is not reached, see `C62`.) -/
def goDown (t : K) (time : List K) : ℕ → Option ℕ
  | 0 =>
    match time[0]? with
    | none => none
    | some x => if t < x then none else some 0
  | i + 1 =>
    match time[i + 1]? with
    | none => none
    | some x => if t < x then goDown t time i else some (i + 1)

/-- `__call__`, `interpolate.py` 1043-1095: new object and value. -/
def Series.call (s : Series K) (t : K) : Except TErr (Series K × K) :=
  match s.time.head?, s.time.getLast? with
  | some t0, some t1 =>
    if t < t0 then .error .early
    else if t > t1 then .error .late
    else
      match goUp t s.time (s.time.length + 1) s.index with
      | none => .error .crash
      | some i =>
        match goDown t s.time i with
        | none => .error .crash
        | some i =>
          match s.time[i]?, s.values[i]? with
          | some ti, some q0 =>
            if t = ti then .ok ({ s with index := i }, q0)
            else
              match s.time[i + 1]?, s.values[i + 1]? with
              | some tj, some q1 =>
                let ratio := (t - ti) / (tj - ti)
                if ratio > 0 then .ok ({ s with index := i }, q0 + ratio * (q1 - q0)) else .ok ({ s with index := i }, q0)
              | _, _ => .error .crash
          | _, _ => .error .crash
  | _, _ => .error .crash

/-- A history of calls: every value returned, in order; a failed call leaves the index where the loops left it only if it failed before them, so
the object is unchanged by the two exceptions about the time range. -/
def Series.calls : Series K → List K → List (Except TErr K) × Series K
  | s, [] => ([], s)
  | s, t :: ts =>
    match s.call t with
    | .ok (s', v) => let r := s'.calls ts; (.ok v :: r.1, r.2)
    | .error e => let r := s.calls ts; (.error e :: r.1, r.2)

end Verif.Interp
