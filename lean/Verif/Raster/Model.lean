import Verif.Basic
import Mathlib.Algebra.Order.Field.Basic
import Mathlib.Data.List.GetD

/-!
# Model of interpolation from rasters

Sources
* `/repo/anuga/fit_interpolate/interpolate2d.py` 29-213 (`interpolate2d`), 215-262 (`interpolate_raster`), 267-349 (`check_inputs`)

Simplifications: numbers of any ordered field instead of floats; `none` stands for NaN, and an arithmetic expression is NaN as soon as an operand is;
of the arrays for all points the model follows one point. `numpy.searchsorted` is the plain binary search (NumPy keeps the bounds of the
previous key, which makes no difference for sorted arrays). With `bounds_error` and an empty list of points NumPy would refuse to take a minimum;
the model lets it pass.
-/

namespace Verif.Raster

variable {K : Type*} [Field K] [LinearOrder K] [IsStrictOrderedRing K]

/-- Binary search between `lo` and `hi` for the first place whose entry is not less than the key. -/
def search (x : List K) (key : K) (lo hi : ℕ) : ℕ :=
  if h : lo < hi then
    if x.getD (lo + (hi - lo) / 2) 0 < key then search x key (lo + (hi - lo) / 2 + 1) hi else search x key lo (lo + (hi - lo) / 2)
  else lo
termination_by hi - lo
decreasing_by all_goals omega

/-- `numpy.searchsorted(x, key, side='left')`, 155-156. -/
def searchsorted (x : List K) (key : K) : ℕ := search x key 0 x.length

/-- `idx - 1` used as an index: `-1` is the last place. -/
def before (n idx : ℕ) : ℕ := if idx = 0 then n - 1 else idx - 1

/-- An entry of the matrix of values. -/
def entry (Z : List (List (Option K))) (i j : ℕ) : Option K := (Z.getD i []).getD j none

/-- `alpha` and `beta`, 172-173; zero divided by zero is NaN. -/
def weight (x : List K) (p : K) : Option K :=
  let idx := searchsorted x p
  let x0 := x.getD (before x.length idx) 0
  let x1 := x.getD idx 0
  if x1 - x0 = 0 then none else some ((p - x0) / (x1 - x0))

inductive Mode where
  | linear
  | constant
  deriving DecidableEq

/-- Value at a point inside the grid, 153-201. -/
def inner (x y : List K) (Z : List (List (Option K))) (mode : Mode) (p q : K) : Option K :=
  let idx := searchsorted x p
  let idy := searchsorted y q
  let z00 := entry Z (before x.length idx) (before y.length idy)
  let z01 := entry Z (before x.length idx) idy
  let z10 := entry Z idx (before y.length idy)
  let z11 := entry Z idx idy
  match mode with
  | .linear => do
    let a ← weight x p
    let b ← weight y q
    let z00 ← z00
    let z01 ← z01
    let z10 ← z10
    let z11 ← z11
    let dx := z10 - z00
    let dy := z01 - z00
    return z00 + a * dx + b * dy + a * b * (z11 - dx - dy - z00)
  | .constant =>
    let left := (weight x p).any fun a => decide (a < 1 / 2)
    let lower := (weight y q).any fun b => decide (b < 1 / 2)
    if lower && left then z00 else if lower && !left then z10 else if !lower && left then z01 else z11

/-- Outside the grid or not a number, 144-145. -/
def outside (x y : List K) (pt : Option K × Option K) : Bool :=
  match pt with
  | (some p, some q) => decide (p < x.headD 0) || decide (q < y.headD 0) || decide (p > x.getLastD 0) || decide (q > y.getLastD 0)
  | _ => true

/-- The result for one point, 203-210. -/
def value (x y : List K) (Z : List (List (Option K))) (mode : Mode) (pt : Option K × Option K) : Option K :=
  if outside x y pt then none else
    match pt with
    | (some p, some q) => inner x y Z mode p q
    | _ => none

inductive Err where
  | grid
  | bounds
  deriving DecidableEq

/-- The conditions on the grid in `check_inputs`, 285-320. -/
def accepts (x y : List K) (Z : List (List (Option K))) : Bool :=
  decide (x ≠ []) && decide (y ≠ []) && decide (x.min? = x.head?) && decide (y.min? = y.head?) && decide (x.max? = x.getLast?) &&
    decide (y.max? = y.getLast?) && decide (Z.length = x.length) && Z.all fun r => decide (r.length = y.length)

/-- Some coordinate that is a number is outside, 327-347. -/
def exceeds (x y : List K) (pts : List (Option K × Option K)) : Bool :=
  pts.any fun pt => (pt.1.any fun p => decide (p < x.headD 0) || decide (p > x.getLastD 0)) ||
    pt.2.any fun q => decide (q < y.headD 0) || decide (q > y.getLastD 0)

/-- `interpolate2d`. -/
def interpolate2d (x y : List K) (Z : List (List (Option K))) (pts : List (Option K × Option K)) (mode : Mode) (boundsError : Bool) :
    Except Err (List (Option K)) :=
  if accepts x y Z = false then .error .grid
  else if boundsError && exceeds x y pts then .error .bounds
  else .ok (pts.map (value x y Z mode))

/-- `numpy.transpose` of a matrix with `n` columns. -/
def transpose (z : List (List (Option K))) (n : ℕ) : List (List (Option K)) := (List.range n).map fun i => z.map fun r => r.getD i none

/-- `interpolate_raster`: rows run from north to south. -/
def interpolateRaster (x y : List K) (z : List (List (Option K))) (pts : List (Option K × Option K)) (mode : Mode) (boundsError : Bool) :
    Except Err (List (Option K)) :=
  interpolate2d x y (transpose z.reverse (z.headD []).length) pts mode boundsError

end Verif.Raster
