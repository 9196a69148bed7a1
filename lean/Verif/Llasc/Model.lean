import Verif.Basic

/-!
# Model of the conversion of rasters in degrees to points

Sources
* `/repo/anuga/file_conversion/llasc2pts.py` 42-205 (`_convert_dem_from_llasc2pts`);
* `/repo/anuga/coordinate_transforms/redfearn.py` 194-257 (`convert_from_latlon_to_utm`): one zone for all points, or an exception.

Simplifications
* exact numbers; conversion of one position (`redfearn`) is a parameter; lines are given by the numbers in them (blank ones, without numbers, are
  passed over by `loadtxt`).
-/

namespace Verif.Llasc

variable {K : Type} [Field K] [LinearOrder K]

/-- Word in front of a coordinate of the corner. -/
inductive Key where
  | corner
  | center
  | other
  deriving DecidableEq

/-- A file. -/
structure Raster (K : Type) where
  ncols : ℕ
  nrows : ℕ
  xkey : Key
  xll : K
  ykey : Key
  yll : K
  cell : K
  nodata : K
  lines : List (List K)

/-- What is written: zone and corner, positions relative to it, elevations. -/
structure Out (K : Type) where
  zone : ℤ
  corner : K × K
  points : List (K × K)
  elevation : List K

/-- 99-112: longitude and latitude of all places, row by row from the top. -/
def places (r : Raster K) : List (K × K) :=
  (List.range r.nrows).flatMap fun (i : ℕ) => (List.range r.ncols).map fun (j : ℕ) =>
    (r.xll + (j : K) * r.cell, r.yll + ((r.nrows : K) - 1) * r.cell - (i : K) * r.cell)

/-- `loadtxt`, 94: rows of the same length. -/
def load (lines : List (List K)) : Option (List (List K)) :=
  let rows := lines.filter fun l => !l.isEmpty
  if rows.all fun l => l.length == (rows.headD []).length then some rows else none

/-- 119-121: numbers of the values which are not missing. -/
def present (nodata : K) (dem : List K) : List ℕ := (List.range dem.length).filter fun k => decide (dem.getD k nodata ≠ nodata)

/-- `_convert_dem_from_llasc2pts`, 42-205; `utm` takes latitude and longitude; `none` is an exception. -/
def convert (utm : K → K → ℤ × K × K) (r : Raster K) : Option (Out K) :=
  if r.xkey = .other ∨ r.ykey = .other then none
  else if r.lines.length ≠ r.nrows then none
  else
    match load r.lines with
    | none => none
    | some rows =>
      let dem := rows.flatten
      let ids := present r.nodata dem
      match ids.mapM fun k => (places r)[k]? with
      | none => none
      | some pts =>
        let conv := pts.map fun p => utm p.2 p.1
        let c := utm r.yll r.xll
        if conv = [] ∨ (conv.any fun q => decide (q.1 ≠ c.1)) then none
        else some ⟨c.1, c.2, conv.map fun q => (q.2.1 - c.2.1, q.2.2 - c.2.2), ids.map fun k => dem.getD k r.nodata⟩

end Verif.Llasc
