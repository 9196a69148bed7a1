import Verif.Basic
import Mathlib.Data.List.Sort
import Mathlib.Algebra.Order.Group.Abs

/-!
# Model of cutting an area out of a grid of latitudes and longitudes

Sources
* `/repo/anuga/file_conversion/file_conversion.py` 258-330 (`get_min_max_indices`), used by `ferret2sww`, `urs2sww` and others;
* `numpy.searchsorted` (binary search), `numpy.sort`, `numpy.allclose`.

Simplifications
* exact numbers; arrays have at least one entry.
-/

namespace Verif.Cut

variable {K : Type*} [Field K] [LinearOrder K]

/-- `num.searchsorted(l, v)` between `lo` and `hi`: binary search for the first entry that is not below `v`. -/
def searchIn (l : List K) (v : K) (lo hi : ℕ) : ℕ :=
  if lo < hi then
    let mid := lo + (hi - lo) / 2
    if l.getD mid 0 < v then searchIn l v (mid + 1) hi else searchIn l v lo mid
  else lo
termination_by hi - lo
decreasing_by all_goals omega

/-- `num.searchsorted(l, v)`. -/
def search (l : List K) (v : K) : ℕ := searchIn l v 0 l.length

/-- `num.allclose(num.sort(l), l)`. -/
def ascending (l : List K) : Bool :=
  ((l.insertionSort (· ≤ ·)).zip l).all fun p => decide (|p.1 - p.2| ≤ 1 / 10 ^ 8 + 1 / 10 ^ 5 * |p.2|)

/-- 297-302 and 311-316: lower index. -/
def lower (l : List K) (v : Option K) : ℕ :=
  match v with
  | none => 0
  | some v => search l v - 1

/-- 304-309: upper index of latitudes. -/
def upperLat (l : List K) (v : Option K) : ℕ :=
  match v with
  | none => l.length - 1
  | some v => min (search l v) (l.length - 1)

/-- 318-321: upper index of longitudes. -/
def upperLon (l : List K) (v : Option K) : ℕ :=
  match v with
  | none => l.length
  | some v => search l v

/-- `get_min_max_indices`, 258-330; `none` is a failed assertion. -/
def indices (lats lons : List K) (minlat maxlat minlon maxlon : Option K) : Option (ℕ × ℕ × ℕ × ℕ) :=
  if !ascending lons then none
  else
    let up := ascending lats
    let l := if up then lats else lats.reverse
    if !up && !ascending l then none
    else
      let a := lower l minlat
      let b := upperLat l maxlat
      let largest := lats.length - 1
      let (a, b) := if up then (a, b) else (largest - b, largest - a)
      some (a, b + 1, lower lons minlon, upperLon lons maxlon + 1)

end Verif.Cut
