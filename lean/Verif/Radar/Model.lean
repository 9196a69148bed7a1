import Verif.Basic
import Mathlib.Data.List.Sort
import Mathlib.Algebra.BigOperators.Group.List.Basic

/-!
# Model of rain from radar files

Sources
* `/repo/anuga/rain/calibrated_radar_rain.py` 45-203 (`read_data_files`);
* `/repo/anuga/rain/raster_time_slice_data.py` 135-183 (`accumulate_data_stats`).

Simplifications
* exact numbers; a file is given by the time in its name (73-75), its period (105) and its values, row by row, of which all files have the same
  number; coordinates are given by their extent and numbers; comparison of periods (`allclose`) is a parameter; files with equal times stay in order.
-/

namespace Verif.Radar

variable {K : Type} [Field K] [LinearOrder K]

/-- One file; values are in millimetres. -/
structure File (K : Type) where
  time : K
  period : K
  rain : List K

/-- What is kept. -/
structure Rain (K : Type) where
  step : K
  start : K
  times : List K
  slices : List (List K)
  accumulated : List K
  greatest : K

/-- `calibrated_radar_rain.py` 77-80: is the file in the time asked for? -/
def wanted (start final : Option K) (f : File K) : Bool :=
  (match final with
    | none => true
    | some t => !decide (t < f.time)) &&
  (match start with
    | none => true
    | some t => !decide (f.time < t))

/-- 151, 159: from millimetres to metres. -/
def slice (f : File K) : List K := f.rain.map fun v => v / 1000

/-- 161: `+=` of arrays. -/
def addTo (a b : List K) : List K := List.zipWith (· + ·) a b

/-- `read_data_files`, 45-203; `none` is an exception (also without any file, 196). -/
def read (same : K → K → Bool) (start final : Option K) (files : List (File K)) : Option (Rain K) :=
  match files.filter (wanted start final) with
  | [] => none
  | f :: fs =>
    if fs.all fun g => same f.period g.period then
      let sorted := (f :: fs).insertionSort fun a b => a.time ≤ b.time
      some {
        step := f.period
        start := (sorted.map File.time).headD 0 - f.period
        times := sorted.map File.time
        slices := sorted.map slice
        accumulated := fs.foldl (fun a g => addTo a (slice g)) (slice f)
        greatest := (f :: fs).foldl (fun m g => (slice g).foldl max m) 0 }
    else none

/-- The raster: extent (196) and numbers of columns and rows. -/
structure Grid (K : Type) where
  x0 : K
  x1 : K
  y0 : K
  y1 : K
  nx : ℕ
  ny : ℕ

/-- `raster_time_slice_data.py` 154-160: accumulated rain or that of one slice. -/
def pick (r : Rain K) : Option ℕ → Option (List K)
  | none => some r.accumulated
  | some t => r.slices[t]?

/-- `accumulate_data_stats`, 135-183: volume and area, for one slice or all, in all cells or those of a polygon. -/
def stats (g : Grid K) (r : Rain K) (tid : Option ℕ) (cells : Option (List ℕ)) : Option (K × K) :=
  let ldx := (g.x1 - g.x0) / (g.nx : K)
  let ldy := (g.y1 - g.y0) / (g.ny : K)
  match pick r tid with
  | none => none
  | some d =>
    match cells with
    | none => some (d.sum * ldx * ldy, (d.length : K) * ldx * ldy)
    | some l =>
      match l.mapM fun k => d[k]? with
      | none => none
      | some vals => some (vals.sum * ldx * ldy, (vals.length : K) * ldx * ldy)

end Verif.Radar
