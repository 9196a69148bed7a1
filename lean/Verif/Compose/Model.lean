import Verif.Polygon.Model
import Mathlib.Algebra.Order.Floor.Ring

/-!
# Quantities set from several sources: `composite_quantity_setting_function`

Sources: `/repo/anuga/utilities/quantity_setting_functions.py` 12-161 (nearest neighbours), 166-603 (composite function), 608-640
(rasters), 645-680; `/repo/anuga/utilities/spatialInputUtil.py` 696-868 (values of a raster at points).

Simplifications: exact arithmetic over an ordered field, `nan` is `none`; sources work point by point; the tree of
`scipy.spatial` is a parameter `query` (its contract is a hypothesis of the theorems); files of polygons and points are taken as
read, `'Extent'` as the polygon it stands for; the values of a raster are integers or floats already unpacked.
-/

set_option linter.unusedSectionVars false

namespace Verif.Compose

open Verif.Polygon

variable {K : Type*} [Field K] [LinearOrder K] [IsStrictOrderedRing K]

/-! ## Nearest neighbours, quantity_setting_functions.py 12-161 -/

/-- A data point: map position and value. -/
structure Datum (K : Type*) where
  at_ : Pt K
  value : K

/-- `query`: the `k` nearest data points of a position, as pairs of distance and row number. -/
abbrev Query (K : Type*) := List (Datum K) → ℕ → Pt K → List (K × ℕ)

/-- The argument `method`; every other word means the average. -/
inductive Method where
  | min
  | max
  | average
  deriving DecidableEq

/-- The number `9.0e+100`. -/
def huge : K := 9 * 10 ^ 100

/-- The loop `numerator = np.minimum(numerator, values)`, 112-125. -/
def lowest (vals : List K) : K := vals.foldl (fun m v => if v < m then v else m) huge

/-- The loop `numerator = np.maximum(numerator, values)`, 126-139. -/
def highest (vals : List K) : K := vals.foldl (fun m v => if m < v then v else m) (-huge)

/-- The inverse distance weighted average, 140-156. -/
def weighted (nb : List (K × K)) : K :=
  (nb.foldl (fun s dv => s + dv.2 * (1 / (dv.1 + 1 / 10 ^ 100))) 0) / (nb.foldl (fun s dv => s + 1 / (dv.1 + 1 / 10 ^ 100)) 0)

/-- `quant_NN_fun` at one map position, 70-158. -/
def nearest (query : Query K) (data : List (Datum K)) (k : ℕ) (method : Method) (threshold background : K) (p : Pt K) : K :=
  let nb := (query data k p).map fun di => (di.1, (data.map Datum.value).getD di.2 0)
  match nb with
  | [] => background
  | first :: _ =>
    if first.1 < threshold then
      match method with
      | .min => lowest (nb.map Prod.snd)
      | .max => highest (nb.map Prod.snd)
      | .average => weighted nb
    else background

/-! ## Rasters, spatialInputUtil.py 696-868 -/

/-- An open raster: origin, signed pixel sizes, size, pixel values (row, column), value for missing data. -/
structure Grid (K : Type*) where
  x0 : K
  y0 : K
  width : K
  height : K
  ncols : ℕ
  nrows : ℕ
  pixel : ℕ → ℕ → K
  nodata : Option K

/-- `abs(value - nodataval) < nodata_rel_tol*abs(nodataval)`, 847-850 and 858-864. -/
def Grid.missing (g : Grid K) (v : K) : Bool :=
  match g.nodata with
  | none => false
  | some m => decide (|v - m| < 1 / 10 ^ 8 * |m|)

/-- Lower and upper pixel and the place between their centres, 782-812. -/
def between [FloorRing K] (n : ℕ) (px : K) : ℤ × ℤ × K :=
  let f := ⌊px⌋
  let lu : ℤ × ℤ := if px - (f : K) > 1 / 2 then (f, min (f + 1) ((n : ℤ) - 1)) else (max (f - 1) 0, f)
  (lu.1, lu.2, if lu.2 > lu.1 then px - ((lu.1 : K) + 1 / 2) else 0)

/-- `rasterValuesAtPoints` at one point, `nan` as `none`; the outer `none` is an exception. 'pixel' or 'bilinear'. -/
def Grid.value [FloorRing K] (g : Grid K) (bilinear : Bool) (p : Pt K) : Option (Option K) :=
  let px := (p.x - g.x0) / g.width
  let py := (p.y - g.y0) / g.height
  if px < (g.ncols : K) ∧ 0 ≤ px ∧ py < (g.nrows : K) ∧ 0 ≤ py then
    if bilinear then
      let a := between g.ncols px
      let b := between g.nrows py
      let x := a.2.2
      let y := b.2.2
      if ¬ (0 ≤ x ∧ x ≤ 1) then none
      else if ¬ (0 ≤ y ∧ y ≤ 1) then none
      else
        let r00 := g.pixel b.1.toNat a.1.toNat
        let r01 := g.pixel b.2.1.toNat a.1.toNat
        let r10 := g.pixel b.1.toNat a.2.1.toNat
        let r11 := g.pixel b.2.1.toNat a.2.1.toNat
        let v := r00 * (1 - x) * (1 - y) + r01 * (1 - x) * y + r10 * x * (1 - y) + r11 * x * y
        some (if [r00, r01, r10, r11].any g.missing then none else some v)
    else
      let v := g.pixel ⌊py⌋.toNat ⌊px⌋.toNat
      some (if g.missing v then none else some v)
  else none

/-! ## The composite function, quantity_setting_functions.py 166-603 -/

/-- What `pi` may be. -/
inductive Region (K : Type*) where
  | skip
  | all
  | polygon (p : List (Pt K))

/-- What `fi` may be; `call` gets the coordinates of the domain, the others work with map positions; a raster may raise an exception
(the outer `none`); `bad` is anything else. -/
inductive Source (K : Type*) where
  | call (f : Pt K → Option K)
  | const (c : K)
  | points (d : List (Datum K))
  | raster (f : Pt K → Option (Option K))
  | bad

/-- `nan_treatment`. -/
inductive Treatment where
  | exception
  | fallThrough
  | other
  deriving DecidableEq

/-- `nan_interpolation_region_polygon`. -/
inductive Gaps (K : Type*) where
  | no
  | all
  | within (ps : List (List (Pt K)))

/-- The fixed arguments. -/
structure Setup (K : Type*) where
  pairs : List (Region K × Source K)
  clip : Option (List (K × K))
  treatment : Treatment
  gaps : Gaps K
  k : ℕ
  xll : K
  yll : K

/-- `xy_array_trans`: the map position. -/
def Setup.place (s : Setup K) (p : Pt K) : Pt K := ⟨p.x + s.xll, p.y + s.yll⟩

/-- The checks made when the function is built, 301-309. -/
def Setup.clipOk (s : Setup K) : Bool :=
  match s.clip with
  | none => true
  | some c => decide (c.length = s.pairs.length) && c.all fun b => !decide (b.1 > b.2)

/-- The check of 'All', 331-338: later regions must be `None`. -/
def allLast : List (Region K × Source K) → Bool
  | [] => true
  | (r, _) :: rest =>
    (match r with
      | .all => rest.all fun q => match q.1 with | .skip => true | _ => false
      | _ => true) && allLast rest

/-- `quantityVal`, `isSet`, `was_ever_nan`. -/
structure State (K : Type*) where
  val : List (Option K)
  isSet : List Bool
  ever : List Bool

/-- `array[indices] = f(indices)`. -/
def assign {α : Type*} (l : List α) (inds : List ℕ) (f : ℕ → α) : List α := inds.foldl (fun l i => l.set i (f i)) l

/-- `fInds`, 351-391. -/
def select (sq : K → K) (s : Setup K) (pts : List (Pt K)) (st : State K) : Region K → List ℕ
  | .skip => []
  | .all => (List.range pts.length).filter fun i => !st.isSet.getD i true
  | .polygon poly =>
    let notSet := (List.range pts.length).filter fun i => !st.isSet.getD i true
    (insidePolygon sq true (notSet.map fun i => s.place (pts.getD i ⟨0, 0⟩)) poly).map fun j => notSet.getD j 0

/-- The value of a source at a point, 403-445; the outer `none` is an exception, as for an unknown type. -/
def evaluate (query : Query K) (s : Setup K) (src : Source K) (p : Pt K) : Option (Option K) :=
  match src with
  | .call f => some (f p)
  | .const c => some (some (c * 1))
  | .points d => some (some (nearest query d s.k .average huge huge (s.place p)))
  | .raster f => f (s.place p)
  | .bad => none

/-- `numpy.minimum(numpy.maximum(v, lower), upper)`, 495-501. -/
def clipTo (b : K × K) (v : K) : K :=
  let u := if b.1 < v then v else b.1
  if u < b.2 then u else b.2

/-- One pair, 342-501; `none` is an exception. -/
def step (sq : K → K) (query : Query K) (s : Setup K) (pts : List (Pt K)) (i : ℕ) (q : Region K × Source K) (st : State K) : Option (State K) :=
  let inds := select sq s pts st q.1
  if inds.isEmpty then some st
  else if inds.any fun j => (evaluate query s q.2 (pts.getD j ⟨0, 0⟩)).isNone then none
  else
      let v := fun j => (evaluate query s q.2 (pts.getD j ⟨0, 0⟩)).getD none
      let val := assign st.val inds v
      let nan := inds.filter fun j => (v j).isNone
      let good := inds.filter fun j => (v j).isSome
      let ever := assign st.ever nan fun _ => true
      let finish : State K :=
        ⟨match s.clip with
          | none => val
          | some c => assign val good fun j => (v j).map (clipTo (c.getD i (0, 0))),
          assign st.isSet good fun _ => true, ever⟩
      if nan.isEmpty then some finish
      else
        match s.treatment with
        | .exception => none
        | .other => none
        | .fallThrough => if good.isEmpty then some ⟨val, st.isSet, ever⟩ else some finish

/-- The main loop. -/
def loop (sq : K → K) (query : Query K) (s : Setup K) (pts : List (Pt K)) : ℕ → List (Region K × Source K) → State K → Option (State K)
  | _, [], st => some st
  | i, q :: rest, st => (step sq query s pts i q st).bind (loop sq query s pts (i + 1) rest)

/-- `points_to_reinterpolate`, 508-534. -/
def chosen (sq : K → K) (s : Setup K) (pts : List (Pt K)) (ever : List Bool) : List ℕ :=
  let possible := (List.range pts.length).filter fun i => ever.getD i false
  match s.gaps with
  | .no => []
  | .all => possible
  | .within ps => ps.flatMap fun poly =>
      (insidePolygon sq true (possible.map fun i => s.place (pts.getD i ⟨0, 0⟩)) poly).map fun j => possible.getD j 0

/-- Filling of gaps from the other points, 508-587; `none` is an exception. -/
def fill (sq : K → K) (query : Query K) (s : Setup K) (pts : List (Pt K)) (st : State K) : Option (State K) :=
  match s.gaps with
  | .no => some st
  | _ =>
    if st.ever.any id then
      let redo := chosen sq s pts st.ever
      let ip := (List.range pts.length).filter fun i => !redo.contains i
      if ip.any fun i => (st.val.getD i none).isNone then none
      else if ip.length < s.k then none
      else
        let data := ip.map fun i => (⟨s.place (pts.getD i ⟨0, 0⟩), (st.val.getD i none).getD 0⟩ : Datum K)
        some ⟨assign st.val redo fun i => some (nearest query data s.k .average huge huge (s.place (pts.getD i ⟨0, 0⟩))),
          assign st.isSet redo fun _ => true, st.ever⟩
    else some st

/-- `F(x, y)`, 311-600; `none` is an exception. -/
def composite (sq : K → K) (query : Query K) (s : Setup K) (pts : List (Pt K)) : Option (List (Option K)) :=
  if s.pairs.isEmpty then none
  else if allLast s.pairs then
    (loop sq query s pts 0 s.pairs ⟨pts.map fun _ => none, pts.map fun _ => false, pts.map fun _ => false⟩).bind fun st =>
      (fill sq query s pts st).bind fun st =>
        if st.isSet ≠ [] ∧ st.isSet.all id then some st.val else none
  else none

/-- `composite_quantity_setting_function` followed by a call of the function made. -/
def setting (sq : K → K) (query : Query K) (s : Setup K) (pts : List (Pt K)) : Option (List (Option K)) :=
  if s.clipOk then composite sq query s pts else none

end Verif.Compose
