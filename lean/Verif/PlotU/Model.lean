import Verif.FileFn.Spec
import Verif.Polygon.Model

/-!
# Model of reading result files for analysis (`plot_utils`)

Source: `/repo/anuga/utilities/plot_utils.py` 55-111 (`combine_outputs`), 146-160 (`get_output`), 164-204 (`getInds`), 208-328 (`_read_output`),
331-361 (`get_centroids`), 363-421 (`_getCentVar`), 424-648 (`_get_centroid_values`), 682-742 (`near_transect`), 745-769 (`triangle_areas`),
772-795 (`water_volume`), 798-838 (`get_triangle_containing_point`), 841-871 (`get_triangle_near_point`).

Simplifications: exact field (`sqrt` a parameter; the rounding to single precision is left out). The arrays of a file have the shapes given by
the dimensions of the file, so that rows and columns exist. Negative time indices and empty lists of times are left out. Friction is left out.
-/

namespace Verif.PlotU

open Verif.Polygon (Pt)
open Verif.FileFn (Var)

variable {K : Type*} [Field K] [LinearOrder K]

/-- The contents of a result file. -/
structure Sww (K : Type*) where
  time : List K
  x : List (Pt K)
  vols : List (ℕ × ℕ × ℕ)
  corner : Pt K
  vars : String → Option (Var K)

/-- `timeSlices`: a list of indices or a word. -/
inductive Slices where
  | all
  | last
  | max
  | list (l : List ℕ)

/-- `inds`, `plot_utils.py` 235-246 and 497-508; `none` is the word 'max'. -/
def Slices.inds (n : ℕ) : Slices → Option (List ℕ)
  | .all => some (List.range n)
  | .last => some [n - 1]
  | .max => none
  | .list l => some l

/-- The largest of the values, `max(axis=0)`. -/
def largest : List K → K
  | [] => 0
  | a :: l => l.foldl max a

/-- The first of the values with the largest magnitude, `getInds` with `absMax`, `plot_utils.py` 188-194. -/
def furthest : List K → K
  | [] => 0
  | a :: l => l.foldl (fun b v => if |b| < |v| then v else b) a

/-- Rows at the times `l` with `n` columns. -/
def table (l : List ℕ) (n : ℕ) (g : ℕ → ℕ → K) : List (List K) := l.map fun i => (List.range n).map fun j => g i j

/-- One row with the values `pick` of the columns over `m` times. -/
def overTime (pick : List K → K) (m n : ℕ) (g : ℕ → ℕ → K) : List (List K) :=
  [(List.range n).map fun j => pick ((List.range m).map fun i => g i j)]

/-- The rows or, for 'max', the row of the values `pick`. -/
def select (inds : Option (List ℕ)) (pick : List K → K) (m n : ℕ) (g : ℕ → ℕ → K) : List (List K) :=
  match inds with
  | some l => table l n g
  | none => overTime pick m n g

/-- `getInds` for an array with one or two indices, `plot_utils.py` 164-204. -/
def getInds (inds : Option (List ℕ)) (m n : ℕ) : Var K → Var K
  | .one v => .one v
  | .two rows => .two (select inds largest m n fun i j => (rows.getD i []).getD j 0)

/-- The times, `plot_utils.py` 248-253. -/
def times (inds : Option (List ℕ)) (time : List K) : List K :=
  match inds with
  | some l => l.map fun i => time.getD i 0
  | none => [largest time]

/-- `height*(height>0.)`. -/
def clip (h : K) : K := if h > 0 then h else 0

/-- `mom*h_inv*hWet`, `plot_utils.py` 310-314. -/
def velocity (hmin m h : K) : K := m * (1 / (h + 1 / 10 ^ 12)) * (if h > hmin then 1 else 0)

/-- The arrays of `get_output` and `get_centroids`. -/
structure Out (K : Type*) where
  time : List K
  stage : List (List K)
  elev : Var K
  height : List (List K)
  xmom : List (List K)
  ymom : List (List K)
  xvel : List (List K)
  yvel : List (List K)
  vel : List (List K)
  slices : Option (List ℕ)

/-- The elevation at file time `i` that is subtracted in `_read_output` 292-297: the selected one; for 'max' that is the largest. -/
def elevAt (inds : Option (List ℕ)) (m : ℕ) (el : Var K) (i j : ℕ) : K :=
  match inds, el with
  | none, .two _ => largest ((List.range m).map fun i => el.value i j)
  | _, _ => el.value i j

/-- `height` at a file time and node, `plot_utils.py` 283-298. -/
def heightAt (f : Sww K) (inds : Option (List ℕ)) (st el : Var K) (i j : ℕ) : K :=
  match f.vars "height" with
  | some v => clip (v.value i j)
  | none => clip (st.value i j - elevAt inds f.time.length el i j)

/-- `get_output(filename, minimum_allowed_height, timeSlices)`, `plot_utils.py` 146-160 and 208-328; `none` is an exception. -/
def getOutput (sq : K → K) (f : Sww K) (hmin : K) (s : Slices) : Option (Out K) :=
  match f.vars "stage", f.vars "elevation", f.vars "xmomentum", f.vars "ymomentum" with
  | some st, some el, some xm, some ym =>
    let m := f.time.length
    let n := f.x.length
    let inds := s.inds m
    if (inds.getD [0]).all (· < m) then
      let h := heightAt f inds st el
      some
        { time := times inds f.time
          stage := select inds largest m n st.value
          elev := getInds inds m n el
          height := select inds largest m n h
          xmom := select inds furthest m n xm.value
          ymom := select inds furthest m n ym.value
          xvel := select inds furthest m n fun i j => velocity hmin (xm.value i j) (h i j)
          yvel := select inds furthest m n fun i j => velocity hmin (ym.value i j) (h i j)
          vel := select inds largest m n fun i j => velocity hmin (sq (xm.value i j ^ 2 + ym.value i j ^ 2)) (h i j)
          slices := inds }
    else none
  | _, _, _, _ => none

/-! ## Centroids -/

/-- The mean of the three corners of triangle `k`. -/
def mean (vols : List (ℕ × ℕ × ℕ)) (g : ℕ → K) (k : ℕ) : K :=
  let t := vols.getD k (0, 0, 0)
  (g t.1 + g t.2.1 + g t.2.2) / 3

/-- A variable at the centroids, `_getCentVar`, `plot_utils.py` 363-421: as stored, or the mean of the corners. -/
def centVar (f : Sww K) (name : String) : Option (Var K) :=
  match f.vars (name ++ "_c") with
  | some v => some v
  | none =>
    match f.vars name with
    | none => none
    | some (.one v) => some (.one ((List.range f.vols.length).map (mean f.vols fun j => v.getD j 0)))
    | some (.two rows) => some (.two (rows.map fun r => (List.range f.vols.length).map (mean f.vols fun j => r.getD j 0)))

/-- `elev_cent` after it was reduced to one row, `plot_utils.py` 526-532. -/
def firstRow : Var K → List K
  | .one v => v
  | .two rows => rows.getD 0 []

/-- The vertex heights used for velocities, `plot_utils.py` 582-593: elevations that depend on time are read for as many times as the file
has. -/
def vertexHeight (f : Sww K) (l : List ℕ) (st el : Var K) : Option (ℕ → ℕ → K) :=
  match el with
  | .one v => some fun i j => st.value i j - v.getD j 0
  | .two _ => if l.length = f.time.length ∨ (f.time.length = 1 ∧ l ≠ []) then some fun i j => st.value i j - el.value i j else none

/-- Momentum and velocity at the centroids over the times of the file: (x momentum, y momentum, x velocity, y velocity), `plot_utils.py` 550-629. -/
structure Flow (K : Type*) where
  xm : ℕ → ℕ → K
  ym : ℕ → ℕ → K
  xv : ℕ → ℕ → K
  yv : ℕ → ℕ → K

/-- `height_c_tmp`, `plot_utils.py` 561-564. -/
def centHeight (f : Sww K) (st : Var K) (elev : List K) (i k : ℕ) : K :=
  match f.vars "height_c" with
  | some v => v.value i k
  | none => st.value i k - elev.getD k 0

/-- The flow, from centroid values (550-570) or from vertex values (572-629). -/
def flow (f : Sww K) (extrapolate : Bool) (hmin : K) (l : List ℕ) (elev : List K) : Option (Flow K) :=
  match f.vars "xmomentum_c" with
  | some xm =>
    match f.vars "ymomentum_c", f.vars "stage_c" with
    | some ym, some st =>
      let h : ℕ → ℕ → K := centHeight f st elev
      some ⟨xm.value, ym.value, fun i k => velocity hmin (xm.value i k) (h i k), fun i k => velocity hmin (ym.value i k) (h i k)⟩
    | _, _ => none
  | none =>
    match f.vars "stage", f.vars "elevation", f.vars "xmomentum", f.vars "ymomentum" with
    | some st, some el, some xm, some ym =>
      match vertexHeight f l st el with
      | none => none
      | some hv =>
        let h : ℕ → ℕ → K := fun i k => mean f.vols (hv i) k
        if extrapolate then
          let xv : ℕ → ℕ → K := fun i k => mean f.vols (fun j => velocity hmin (xm.value i j) (hv i j)) k
          let yv : ℕ → ℕ → K := fun i k => mean f.vols (fun j => velocity hmin (ym.value i j) (hv i j)) k
          some ⟨fun i k => xv i k * h i k, fun i k => yv i k * h i k, xv, yv⟩
        else
          let xc : ℕ → ℕ → K := fun i k => mean f.vols (xm.value i) k
          let yc : ℕ → ℕ → K := fun i k => mean f.vols (ym.value i) k
          some ⟨xc, yc, fun i k => velocity hmin (xc i k) (h i k), fun i k => velocity hmin (yc i k) (h i k)⟩
    | _, _, _, _ => none

/-- `get_centroids(filename, velocity_extrapolation, timeSlices, minimum_allowed_height)`, `plot_utils.py` 331-361 and 424-648. -/
def getCentroids (sq : K → K) (f : Sww K) (extrapolate : Bool) (hmin : K) (s : Slices) : Option (Out K) :=
  match centVar f "stage", centVar f "elevation" with
  | some st, some el =>
    let m := f.time.length
    let n := f.vols.length
    let inds := s.inds m
    if (inds.getD [0]).all (· < m) then
      let stage := select inds largest m n st.value
      let elev := firstRow (getInds inds m n el)
      match flow f extrapolate hmin (inds.getD (List.range m)) elev with
      | none => none
      | some q =>
        some
          { time := times inds f.time
            stage := stage
            elev := .one elev
            height := stage.map fun r => (List.range n).map fun k => r.getD k 0 - elev.getD k 0
            xmom := select inds furthest m n q.xm
            ymom := select inds furthest m n q.ym
            xvel := select inds furthest m n q.xv
            yvel := select inds furthest m n q.yv
            vel := select inds largest m n fun i k => sq (q.xv i k ^ 2 + q.yv i k ^ 2)
            slices := inds }
    else none
  | _, _ => none

/-- `get_centroids` of an object made by `get_output` or `combine_outputs`: the file named in the object is read again at the times noted in it;
`first` is that file. `plot_utils.py` 452-494. The default of `minimum_allowed_height` is 0.001, not that of the object. -/
def centroidsOf (sq : K → K) (first : Sww K) (p : Out K) (extrapolate : Bool) (hmin : K := 1 / 10 ^ 3) : Option (Out K) :=
  getCentroids sq first extrapolate hmin (match p.slices with | some l => .list l | none => .max)

/-- Appending the output of the next file, `combine_outputs`, `plot_utils.py` 87-99. -/
def Out.append (p q : Out K) : Out K :=
  { p with
    time := p.time ++ q.time
    stage := p.stage ++ q.stage
    height := p.height ++ q.height
    xmom := p.xmom ++ q.xmom
    ymom := p.ymom ++ q.ymom
    xvel := p.xvel ++ q.xvel
    yvel := p.yvel ++ q.yvel
    vel := p.vel ++ q.vel }

/-- The loop of `combine_outputs` after the first file. -/
def appendAll [DecidableEq K] (sq : K → K) (hmin : K) (first : Sww K) : Out K → List (Sww K) → Option (Out K)
  | p, [] => some p
  | p, f :: fs =>
    match getOutput sq f hmin .all with
    | none => none
    | some q => if first.x = f.x ∧ first.vols = f.vols then appendAll sq hmin first (p.append q) fs else none

/-- `combine_outputs(filename_list, minimum_allowed_height)`, `plot_utils.py` 55-111. -/
def combine [DecidableEq K] (sq : K → K) (hmin : K) : List (Sww K) → Option (Out K)
  | [] => none
  | f :: fs =>
    match getOutput sq f hmin .all with
    | none => none
    | some p => appendAll sq hmin f p fs

/-! ## Areas, volumes, transects and triangles -/

/-- `triangle_areas` for triangle `k`, `plot_utils.py` 745-769. -/
def area (x : List (Pt K)) (vols : List (ℕ × ℕ × ℕ)) (k : ℕ) : K :=
  let t := vols.getD k (0, 0, 0)
  let p0 := x.getD t.1 ⟨0, 0⟩
  let p1 := x.getD t.2.1 ⟨0, 0⟩
  let p2 := x.getD t.2.2 ⟨0, 0⟩
  |((p0.x - p1.x) * (p2.y - p1.y) - (p0.y - p1.y) * (p2.x - p1.x)) * (1 / 2)|

/-- `water_volume(p, p2, per_unit_area, subset)`, `plot_utils.py` 772-795; `stage` and `elev` are those of the centroids. -/
def waterVolume (x : List (Pt K)) (vols : List (ℕ × ℕ × ℕ)) (stage : List (List K)) (elev : List K) (perArea : Bool) (subset : Option (List ℕ)) :
    List K :=
  let sub := subset.getD (List.range vols.length)
  stage.map fun r =>
    let wet : ℕ → K := fun k => if r.getD k 0 > elev.getD k 0 then 1 else 0
    let v := (sub.map fun k => r.getD k 0 * wet k * area x vols k).sum + (sub.map fun k => -elev.getD k 0 * wet k * area x vols k).sum
    if perArea then v / (sub.map (area x vols)).sum else v

/-- `near_transect(p, point1, point2, tol)`, `plot_utils.py` 682-742: indices and coordinates along the line. -/
def nearTransect (sq : K → K) (x : List (Pt K)) (p1 p2 : Pt K) (tol : K) : List (ℕ × K) :=
  let g := (p2.y - p1.y) / (p2.x - p1.x)
  let a := if p1.x ≠ p2.x then -g else 1
  let b := if p1.x ≠ p2.x then 1 else 0
  let c := if p1.x ≠ p2.x then -(p1.y - g * p1.x) else -p2.x
  let inv := 1 / sq (a ^ 2 + b ^ 2)
  let norm := sq ((p2.x - p1.x) ^ 2 + (p2.y - p1.y) ^ 2)
  let dl := sq ((p1.x - p2.x) ^ 2 + (p1.y - p2.y) ^ 2)
  let near := (List.range x.length).filter fun i =>
    let p := x.getD i ⟨0, 0⟩
    decide (|p.x * a + p.y * b + c| * inv < tol)
  let loc := near.map fun i =>
    let p := x.getD i ⟨0, 0⟩
    (i, (p2.x - p1.x) / norm * (p.x - p1.x) + (p2.y - p1.y) / norm * (p.y - p1.y))
  loc.filter fun q => decide (q.2 ≤ dl) && decide (q.2 ≥ 0)

/-- `get_triangle_containing_point(p, point, search_order)`, `plot_utils.py` 798-838: the first triangle in the order that contains the point;
`order` is the argument or the order by distance to the first corner. -/
def containing (sq : K → K) (x : List (Pt K)) (vols : List (ℕ × ℕ × ℕ)) (p : Pt K) : List ℕ → Option ℕ
  | [] => none
  | k :: ks =>
    let t := vols.getD k (0, 0, 0)
    match Verif.Polygon.isInsidePolygon sq true p [x.getD t.1 ⟨0, 0⟩, x.getD t.2.1 ⟨0, 0⟩, x.getD t.2.2 ⟨0, 0⟩] with
    | none => none
    | some true => some k
    | some false => containing sq x vols p ks

/-- Squared distance of the (absolute) centroid of triangle `k` to a point. -/
def dist2 (f : Sww K) (p : Pt K) (k : ℕ) : K :=
  (mean f.vols (fun j => (f.x.getD j ⟨0, 0⟩).x) k + f.corner.x - p.x) ^ 2 + (mean f.vols (fun j => (f.x.getD j ⟨0, 0⟩).y) k + f.corner.y - p.y) ^ 2

/-- `numpy.argmin`: the first index of the least value. -/
def argminFrom (g : ℕ → K) : ℕ → List ℕ → ℕ
  | b, [] => b
  | b, k :: ks => argminFrom g (if g k < g b then k else b) ks

/-- `get_triangle_near_point(p, point, tolerance)`, `plot_utils.py` 841-871; `none` is an exception. -/
def nearPoint (f : Sww K) (p : Pt K) (tol : K) : Option ℕ :=
  if f.vols.length = 0 then none
  else
    let k := argminFrom (dist2 f p) 0 (List.range f.vols.length)
    if dist2 f p k > tol ^ 2 then none else some k

end Verif.PlotU
