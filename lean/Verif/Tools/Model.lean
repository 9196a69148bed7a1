import Verif.Basic
import Mathlib.Algebra.Order.Floor.Defs
import Mathlib.Data.List.Sort
import Mathlib.Algebra.Order.Archimedean.Basic
import Mathlib.Data.List.GetD

/-!
# Histograms, percentile reports and statistics

Model of

* `/repo/anuga/utilities/numerical_tools.py` 131-157
  (`mean`, `cov`), 159-198 (`err`), 200-206 (`norm`), 209-226 (`corr`), 269-284 (`histogram`),
  286-303 (`create_bins`);
* `/repo/anuga/abstract_2d_finite_volumes/generic_domain.py` 1271-1335 and
  `/repo/anuga/abstract_2d_finite_volumes/neighbour_mesh.py` 999-1046: the histogram and percentile
  reports (the numbers printed, not the text).

Numbers live in an ordered field (reals where square roots are needed); `numpy.sort`,
`numpy.searchsorted` and `numpy.arange` are modelled by what numpy documents.
-/

set_option linter.unusedSectionVars false

namespace Verif.Tools

section
variable {K : Type*} [Field K] [LinearOrder K] [IsStrictOrderedRing K]

/-- `numpy.sort`. -/
def sort (a : List K) : List K := a.insertionSort (· ≤ ·)

/-- `numpy.searchsorted(s, b)` (side `left`): the first place where `b` can be inserted. -/
def searchLeft (s : List K) (b : K) : ℕ := (s.takeWhile fun x => decide (x < b)).length

/-- `n[1:] - n[:-1]`. -/
def diffs : List ℤ → List ℤ
  | x :: y :: l => (y - x) :: diffs (y :: l)
  | _ => []

/-- `histogram(a, bins)`, `numerical_tools.py` 269-284. -/
def histogram (a bins : List K) : List ℤ :=
  diffs ((bins.map fun b => (searchLeft (sort a) b : ℤ)) ++ [(a.length : ℤ)])

/-- `histogram(a, bins, relative=True)`, 281-282.  Numpy gives `nan` for every entry when the sum is
zero: `none`. -/
def histogramRelative (a bins : List K) : Option (List K) :=
  let h := histogram a bins
  if h.sum = 0 then none else some (h.map fun c : ℤ => (c : K) / (h.sum : K))

/-- `max(data)` / `min(data)`; an empty sequence is an error. -/
def maxOf : List K → Option K
  | [] => none
  | x :: l => some (l.foldl max x)

/-- `min(data)`. -/
def minOf : List K → Option K
  | [] => none
  | x :: l => some (l.foldl min x)

/-- `numpy.arange(start, stop, step)` in exact arithmetic: `⌈(stop - start) / step⌉` values. -/
def arange [FloorRing K] (start stop step : K) : List K :=
  (List.range ⌈(stop - start) / step⌉.toNat).map fun i : ℕ => start + i * step

/-- `create_bins(data, number_of_bins)`, `numerical_tools.py` 286-303; `none` when Python raises
(no data) or divides by zero. -/
def createBins [FloorRing K] (data : List K) (number : Option ℕ) : Option (List K) :=
  match maxOf data, minOf data with
  | some mx, some mn =>
    if mx = mn then some [mn]
    else
      let n := number.getD 10
      if n = 0 then none else some (arange mn mx ((mx - mn) / n))
  | _, _ => none

/-- The lines of a histogram report, `generic_domain.py` 1279-1291, `neighbour_mesh.py` 1019-1029:
lower end, upper end, whether the upper end belongs to the class, count. -/
def histogramLines (bins : List K) (top : K) (hist : List ℤ) : List (K × K × Bool × ℤ) :=
  hist.zipIdx.map fun c =>
    (bins.getD c.2 0,
      if c.2 + 1 < bins.length then bins.getD (c.2 + 1) 0 else top,
      decide (¬ c.2 + 1 < bins.length), c.1)

/-- The loop of the percentile report, `generic_domain.py` 1300-1306: remaining values with the index
of the first, `k`, `lower`, and the lines so far `(count, lower, upper)`. -/
def percentileLoop (step : ℕ) : ℕ → ℕ → K → List K → List (ℕ × K × K) → List (ℕ × K × K) × ℕ × K
  | _, k, lower, [], acc => (acc, k, lower)
  | i, k, lower, a :: l, acc =>
    if i % step = 0 ∧ i ≠ 0 then percentileLoop step (i + 1) i a l (acc ++ [(i - k, lower, a)])
    else percentileLoop step (i + 1) k lower l acc

/-- The percentile report, `generic_domain.py` 1293-1309, `neighbour_mesh.py` 1031-1046; nothing is
printed for ten or fewer values. -/
def percentiles (a : List K) : List (ℕ × K × K) :=
  if 10 < a.length then
    let s := sort a
    let r := percentileLoop (a.length / 10) 0 0 ((minOf s).getD 0) s []
    r.1 ++ [(a.length - r.2.1, r.2.2, (maxOf s).getD 0)]
  else []

/-- The timestep printed beside the fastest triangle, `generic_domain.py` 1332-1335 (`//` is the
floor of the quotient). -/
def reportedTimestep [FloorRing K] (radius maxSpeed : K) : K :=
  if 0 < maxSpeed then (⌊radius / maxSpeed⌋ : K) else 0

/-- `mean(x)`, `numerical_tools.py` 131-134. -/
def mean (x : List K) : K := x.sum / x.length

/-- `cov(x, y)`, `numerical_tools.py` 137-157; `none`: the length assertion fails. -/
def cov (x y : List K) : Option K :=
  if x.length = y.length then
    let cx := x.map (· - mean x)
    let cy := y.map (· - mean y)
    some (((cx.zip cy).map fun p => p.1 * p.2).sum / x.length)
  else none

/-- `corr(x, y)`, `numerical_tools.py` 209-226; `sqrt` is a parameter. -/
def corr (sqrt : K → K) (x y : List K) : Option K :=
  match cov x x, cov y y, cov x y with
  | some vx, some vy, some c => some (if vx = 0 ∨ vy = 0 then 0 else c / sqrt (vx * vy))
  | _, _, _ => none

/-- `norm(x)`, `numerical_tools.py` 200-206. -/
def norm (sqrt : K → K) (x : List K) : K := sqrt (x.map fun v => v * v).sum

/-- What a numpy division gives. -/
inductive Fl (K : Type*)
  /-- an ordinary number -/
  | num (x : K)
  /-- `x / 0` with `x > 0` (no exception is raised: `numpy.seterr(divide='ignore')`, 14) -/
  | inf
  /-- `0 / 0` -/
  | nan
  deriving DecidableEq

/-- Division of non-negative numpy numbers. -/
def fdiv (x y : K) : Fl K := if y = 0 then (if x = 0 then .nan else .inf) else .num (x / y)

/-- `err(x, y, n, relative)`, `numerical_tools.py` 159-198, for a list `x` and a list `y` of the same
length (an array `y` makes `if y:` raise) or an omitted `y`, which is the number `0`.  `two` tells
`n == 2`.  `max(0)` raises and is caught, `max` of an empty sequence raises and is not (`none`). -/
def err (sqrt : K → K) (x : List K) (y : Option (List K)) (two relative : Bool) : Option (Fl K) :=
  let d := match y with
    | some y => x.zipWith (· - ·) y
    | none => x
  if two then
    let e := norm sqrt d
    some (if relative then fdiv e (norm sqrt (y.getD [0])) else .num e)
  else
    match maxOf (d.map abs) with
    | none => none
    | some e =>
      match relative, y.bind fun y => maxOf (y.map abs) with
      | true, some m => some (fdiv e m)
      | _, _ => some (.num e)

end

end Verif.Tools
