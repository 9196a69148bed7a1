import Verif.Raster.Props
import Mathlib.Algebra.Order.Floor.Defs
import Mathlib.Data.Rat.Floor

/-!
# Model of grid files

Sources
* `/repo/anuga/file_conversion/grd2array.py` 10-112 (`grd2array`); `asc2dem.py` 58-213 (`_convert_dem_from_ascii2netcdf`);
  `dem2array.py` 12-80 (`dem2array`); `dem2pts.py` 55-381 (`_dem2pts`); `dem2dem.py` 8-137 (`dem2dem`)

Simplifications: a file is its header and its numbers, row by row from the north, one row in each line (text, NetCDF and projection metadata are left out);
numbers of an ordered field with integer parts instead of floats; `none` stands for NaN.
-/

namespace Verif.Raster

variable {K : Type*} [Field K] [LinearOrder K] [IsStrictOrderedRing K]

/-- The words `xllcorner` and `xllcenter`. -/
inductive Key where
  | corner
  | center
  deriving DecidableEq

/-- An ASCII grid. -/
structure Asc (K : Type*) where
  ncols : ℕ
  nrows : ℕ
  xkey : Key
  ykey : Key
  xll : K
  yll : K
  cell : K
  nodata : K
  rows : List (List K)

/-- A NetCDF grid. -/
structure Dem (K : Type*) where
  ncols : ℕ
  nrows : ℕ
  xll : K
  yll : K
  cell : K
  nodata : K
  elevation : List (List K)

/-- Grid lines and values for `interpolate2d`. -/
structure Arr (K : Type*) where
  x : List K
  y : List K
  z : List (List (Option K))

/-- Points with values, relative to an origin. -/
structure Pts (K : Type*) where
  xll : K
  yll : K
  points : List ((K × K) × K)

/-- `numpy.linspace`. -/
def linspace (a b : K) (n : ℕ) : List K := if n = 1 then [a] else (List.range n).map fun i : ℕ => a + (i : K) * ((b - a) / ((n : K) - 1))

/-- The left end, whichever word is used, grd2array.py 66-82. -/
def offset (k : Key) (v : K) : K :=
  match k with
  | .corner => v
  | .center => v

/-- `numpy.where(Z == NODATA_value, numpy.nan, Z)`. -/
def mask (nodata : K) (z : List (List K)) : List (List (Option K)) := z.map fun r => r.map fun v => if v = nodata then none else some v

/-- `numpy.transpose` of a matrix with `n` columns. -/
def transp (z : List (List K)) (n : ℕ) : List (List K) := (List.range n).map fun i => z.map fun r => r.getD i 0

/-- Python's `int` of a float. -/
def trunc [FloorRing K] (v : K) : ℤ := if 0 ≤ v then ⌊v⌋ else ⌈v⌉

/-- `grd2array`. -/
def grd2array [FloorRing K] (a : Asc K) : Option (Arr K) :=
  if a.rows.length = a.nrows then
    let xll := offset a.xkey a.xll
    let yll := offset a.ykey a.yll
    some ⟨linspace xll (xll + a.cell * ((a.ncols : K) - 1)) a.ncols, linspace yll (yll + a.cell * ((a.nrows : K) - 1)) a.nrows,
      mask (trunc a.nodata : K) (transp a.rows.reverse (a.rows.headD []).length)⟩
  else none

/-- `asc2dem`; the numbers must fill the grid. -/
def asc2dem (a : Asc K) : Option (Dem K) :=
  if a.rows.length = a.nrows ∧ ∀ r ∈ a.rows, r.length = a.ncols then
    some ⟨a.ncols, a.nrows, offset a.xkey a.xll, offset a.ykey a.yll, a.cell, a.nodata, a.rows⟩
  else none

/-- `dem2array`: `fliplr` of the transpose. -/
def dem2array (d : Dem K) : Arr K :=
  ⟨linspace d.xll (d.xll + ((d.ncols : K) - 1) * d.cell) d.ncols, linspace d.yll (d.yll + ((d.nrows : K) - 1) * d.cell) d.nrows,
    (transpose (mask d.nodata d.elevation) d.ncols).map List.reverse⟩

/-- All grid points with values, from the north, 293-303 and 310. -/
def nodes (d : Dem K) : List ((K × K) × K) :=
  (List.range d.nrows).flatMap fun i : ℕ => (List.range d.ncols).map fun j : ℕ =>
    ((d.xll + (j : K) * d.cell, d.yll + ((d.nrows : K) - 1) * d.cell - (i : K) * d.cell), (d.elevation.getD i []).getD j 0)

/-- A window; the default is the extent of the file, 190-193. -/
structure Window (K : Type*) where
  eastMin : Option K := none
  eastMax : Option K := none
  northMin : Option K := none
  northMax : Option K := none

/-- `dem2pts`. -/
def dem2pts (d : Dem K) (w : Window K) : Pts K :=
  let e0 := w.eastMin.getD d.xll
  let e1 := w.eastMax.getD (d.xll + (d.ncols : K) * d.cell)
  let n0 := w.northMin.getD d.yll
  let n1 := w.northMax.getD (d.yll + (d.nrows : K) * d.cell)
  let inside := (nodes d).filter fun p => (decide (p.1.1 ≤ e1) && decide (p.1.1 ≥ e0)) && (decide (p.1.2 ≤ n1) && decide (p.1.2 ≥ n0))
  let known := inside.filter fun p => decide (p.2 ≠ d.nodata)
  ⟨e0, n0, known.map fun p => ((p.1.1 - e0, p.1.2 - n0), p.2)⟩

/-- The part of a matrix under the stencil. -/
def window (z : List (List K)) (row col nr nc : ℕ) : List (List K) := ((z.drop row).take nr).map fun r => (r.drop col).take nc

/-- `num.sum(num.sum(tmp * stencil))`. -/
def weigh (tmp stencil : List (List K)) : K := (List.zipWith (fun r s => (List.zipWith (· * ·) r s).sum) tmp stencil).sum

/-- `dem2dem`; `none` for a division by zero. The number of columns of the stencil is that of its first row. -/
def dem2dem [FloorRing K] (d : Dem K) (stencil : List (List K)) (cellNew : K) : Option (Dem K) :=
  let nrs := stencil.length
  let ncs := (stencil.headD []).length
  let cell : K := (trunc d.cell : K)
  let nodata : K := (trunc d.nodata : K)
  if cell = 0 then none else
    let ratio := trunc (cellNew / cell)
    if ratio = 0 then none else
      let ncolsNew := (1 + ((d.ncols : ℤ) - ncs) / ratio).toNat
      let nrowsNew := (1 + ((d.nrows : ℤ) - nrs) / ratio).toNat
      some ⟨ncolsNew, nrowsNew, d.xll + (ncs : K) / 2 * cell, d.yll + (nrs : K) / 2 * cell, cellNew, nodata,
        (List.range nrowsNew).map fun i => (List.range ncolsNew).map fun j =>
          let tmp := window d.elevation (i * ratio.toNat) (j * ratio.toNat) nrs ncs
          if tmp.any fun r => r.any fun v => decide (v = nodata) then nodata else weigh tmp stencil⟩

end Verif.Raster
