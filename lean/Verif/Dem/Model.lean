import Verif.Polygon.Model
import Verif.Raster.Files

/-!
# Results as maps: `sww2dem`

Sources: `/repo/anuga/file_conversion/sww2dem.py` 34-475 (export of a quantity to a raster in the formats `.asc` and `.ers`),
`/repo/anuga/file_conversion/calc_grid_values.c` 29-403 (values at the grid points) and
`/repo/anuga/file_conversion/calc_grid_values_ext.pyx` 18-51.

Simplifications: exact arithmetic over an ordered field, the square root is a parameter; the variables are lists without ragged
ends; the expression is a function of the values of the variables at one point and time (`eval` of a text composed of
elementwise operations); the text `%.3e` of a number is the parameter `fmt` giving the number read back; the `.prj` file and
names are not modelled.
-/

set_option linter.unusedSectionVars false

namespace Verif.Dem

open Verif.Polygon Verif.Raster

variable {K : Type*} [Field K] [LinearOrder K] [IsStrictOrderedRing K]

/-- A variable of the file: with a time axis (`timed[t][i]`) or without, sww2dem.py 245-250. -/
inductive Var (K : Type*) where
  | timed (v : List (List K))
  | static (v : List K)

/-- `fid.variables[name][:, start:end]` or `fid.variables[name][start:end]`, 246-250. -/
def Var.slice (s e : ℕ) : Var K → Var K
  | .timed v => .timed (v.map fun r => (r.take e).drop s)
  | .static v => .static ((v.take e).drop s)

/-- Whether the variable has a time axis. -/
def Var.isTimed : Var K → Bool
  | .timed _ => true
  | .static _ => false

/-- The entry used by elementwise operations: a variable without time axis is repeated. -/
def Var.at (t k : ℕ) : Var K → K
  | .timed v => (v.getD t []).getD k 0
  | .static v => v.getD k 0

/-- What `reduction` may be: a built-in function or an index (possibly negative), 256-261. -/
inductive Reduction (K : Type*) where
  | fn (f : List K → K)
  | index (i : ℤ)

/-- `res[reduction, k]` or `reduction(res[:, k])`; `none` if the index is out of range. -/
def Reduction.apply (column : List K) : Reduction K → Option K
  | .fn f => some (f column)
  | .index i => if 0 ≤ i then column[i.toNat]? else if -(column.length : ℤ) ≤ i then column[(column.length + i).toNat]? else none

/-- The values of one block of `m` points: expression, then reduction if the result has a time axis, 252-262. -/
def block (expr : List K → K) (red : Reduction K) (nt m : ℕ) (vars : List (Var K)) : Option (List K) :=
  if vars.any Var.isTimed then
    (List.range m).mapM fun k => red.apply ((List.range nt).map fun t => expr (vars.map (Var.at t k)))
  else some ((List.range m).map fun k => expr (vars.map (Var.at 0 k)))

/-- The loop over blocks, 238-264; `fuel` is the number of blocks still to do. -/
def blocks (expr : List K → K) (red : Reduction K) (nt n b : ℕ) (vars : List (Var K)) : ℕ → ℕ → List K → Option (List K)
  | 0, _, result => some result
  | fuel + 1, s, result =>
    if s < n then
      let e := min (s + b) n
      (block expr red nt (e - s) (vars.map (Var.slice s e))).bind fun res =>
        blocks expr red nt n b vars fuel (s + b) (result.take s ++ res ++ result.drop e)
    else some result

/-- `result`, 231-264: the value at every point of the mesh. -/
def values (expr : List K → K) (red : Reduction K) (nt n b : ℕ) (vars : List (Var K)) : Option (List K) :=
  blocks expr red nt n b vars n 0 (List.replicate n 0)

/-- Where the grid lies, 274-315. -/
structure Frame (K : Type*) where
  /-- `newxllcorner` -/
  xll : K
  /-- `newyllcorner` -/
  yll : K
  ncols : ℕ
  nrows : ℕ
  /-- positions of the points of the mesh relative to the new corner -/
  pts : List (Pt K)

/-- The least entry, Python's `min`. -/
def least (l : List K) : K := l.tail.foldl (fun m v => if v < m then v else m) (l.headD 0)

/-- The greatest entry, Python's `max`. -/
def greatest (l : List K) : K := l.tail.foldl (fun m v => if v > m then v else m) (l.headD 0)

/-- One end of the grid relative to the origin of the file, 275-293. -/
def bound (asked : Option K) (default origin : K) : K :=
  match asked with
  | none => default
  | some e => e - origin

/-- Extent, size and origin of the grid, 274-315; `none` if an assertion fails. -/
def frame [FloorRing K] (xs ys : List K) (xll yll cell : K) (w : Window K) : Option (Frame K) :=
  let xmin := bound w.eastMin (least xs) xll
  let xmax := bound w.eastMax (greatest xs) xll
  let ymin := bound w.northMin (least ys) yll
  let ymax := bound w.northMax (greatest ys) yll
  if xmax ≥ xmin then
    if ymax ≥ ymin then
      let nx := xmin + xll
      let ny := ymin + yll
      some ⟨nx, ny, (trunc ((xmax - xmin) / cell) + 1).toNat, (trunc ((ymax - ymin) / cell) + 1).toNat,
        List.zipWith (fun x y => ⟨x + xll - nx, y + yll - ny⟩) xs ys⟩
    else none
  else none

/-- A triangle with the values at its corners. -/
structure Tri (K : Type*) where
  a : Pt K
  b : Pt K
  c : Pt K
  va : K
  vb : K
  vc : K

/-- `_point_on_line`, calc_grid_values.c 145-197. -/
def onLine (sq : K → K) (rtol atol : K) (p a b : Pt K) : Bool :=
  let a0 := p.x - a.x
  let a1 := p.y - a.y
  let b0 := b.x - a.x
  let b1 := b.y - a.y
  let nominator := |a1 * b0 + -a0 * b1|
  let denominator := b0 * b0 + b1 * b1
  let isParallel := if denominator = 0 then decide (nominator ≤ atol) else decide (nominator / denominator ≤ rtol)
  isParallel && (decide (a0 * b0 + a1 * b1 ≥ 0) && decide (sq (a0 * a0 + a1 * a1) ≤ sq (b0 * b0 + b1 * b1)))

/-- `_is_inside_triangle`, calc_grid_values.c 199-276, called with `closed = 1`. -/
def insideTri (sq : K → K) (rtol atol : K) (p t0 t1 t2 : Pt K) : Bool :=
  if p.x < t0.x ∧ p.x < t1.x ∧ p.x < t2.x then false
  else if p.x > t0.x ∧ p.x > t1.x ∧ p.x > t2.x then false
  else if p.y < t0.y ∧ p.y < t1.y ∧ p.y < t2.y then false
  else if p.y > t0.y ∧ p.y > t1.y ∧ p.y > t2.y then false
  else
    let v0x := t2.x - t0.x
    let v0y := t2.y - t0.y
    let v1x := t1.x - t0.x
    let v1y := t1.y - t0.y
    let a00 := v0x * v0x + v0y * v0y
    let a01 := v0x * v1x + v0y * v1y
    let a10 := a01
    let a11 := v1x * v1x + v1y * v1y
    let denom := a11 * a00 - a01 * a10
    let vx := p.x - t0.x
    let vy := p.y - t0.y
    let b0 := v0x * vx + v0y * vy
    let b1 := v1x * vx + v1y * vy
    let alpha := (b0 * a11 - b1 * a01) / denom
    let beta := (b1 * a00 - b0 * a10) / denom
    if |denom| > 0 ∧ alpha > 0 ∧ beta > 0 ∧ alpha + beta < 1 then true
    else onLine sq rtol atol p t0 t1 || (onLine sq rtol atol p t1 t2 || onLine sq rtol atol p t2 t0)

/-- The test as called, calc_grid_values.c 369-370. -/
def covers (sq : K → K) (t : Tri K) (p : Pt K) : Bool := insideTri sq (1 / 10 ^ 12) (1 / 10 ^ 12) p t.a t.b t.c

/-- The normal of the edge from `u` to `v`, `init_norms`, calc_grid_values.c 95-137. -/
def normal (sq : K → K) (u v : Pt K) : Pt K :=
  let xn := v.x - u.x
  let yn := v.y - u.y
  let l := sq (xn * xn + yn * yn)
  if l ≠ 0 then ⟨yn / l, -(xn / l)⟩ else ⟨yn, -xn⟩

/-- `sigma`: weight of the corner `v` opposite to the edge with normal `n` starting at `u`, calc_grid_values.c 371-391. -/
def sigma (p v u n : Pt K) : K :=
  let val1 := (p.x - u.x) * n.x + (p.y - u.y) * n.y
  let val2 := (v.x - u.x) * n.x + (v.y - u.y) * n.y
  if val2 ≠ 0 then val1 / val2 else 0

/-- The value written, calc_grid_values.c 371-396. -/
def interp (sq : K → K) (t : Tri K) (p : Pt K) : K :=
  sigma p t.a t.b (normal sq t.b t.c) * t.va + sigma p t.b t.c (normal sq t.c t.a) * t.vb + sigma p t.c t.a (normal sq t.a t.b) * t.vc

/-- `x_min, x_max` (or `y_min, y_max`), calc_grid_values.c 340-355: first and last index visited. -/
def span [FloorRing K] (u v w cell : K) (n : ℕ) : ℤ × ℤ :=
  let lo := trunc (min u (min v w) / cell)
  let hi := trunc (|max u (max v w)| / cell)
  (if lo < 0 then 0 else lo, if hi > (n : ℤ) - 1 then (n : ℤ) - 1 else hi)

/-- Indices from `lo` to `hi` inclusive. -/
def upto (r : ℤ × ℤ) : List ℕ := List.range' r.1.toNat (r.2 + 1 - r.1).toNat

/-- The grid point in row `j` (from the south) and column `k`, calc_grid_values.c 366-367. -/
def node (cell : K) (j k : ℕ) : Pt K := ⟨(k : K) * cell, (j : K) * cell⟩

/-- One triangle, calc_grid_values.c 314-400. -/
def stamp [FloorRing K] (sq : K → K) (cell : K) (nrow ncol : ℕ) (grid : List K) (t : Tri K) : List K :=
  let sx := span t.a.x t.b.x t.c.x cell ncol
  let sy := span t.a.y t.b.y t.c.y cell nrow
  if sx.2 ≥ 0 ∧ sy.2 ≥ 0 then
    ((upto sy).flatMap fun j => (upto sx).map fun k => (j, k)).foldl
      (fun g (jk : ℕ × ℕ) => if covers sq t (node cell jk.1 jk.2) then g.set (jk.1 * ncol + jk.2) (interp sq t (node cell jk.1 jk.2)) else g) grid
  else grid

/-- `calc_grid_values`: fill with the value for missing data, then one triangle after the other. -/
def gridValues [FloorRing K] (sq : K → K) (cell nodata : K) (nrow ncol : ℕ) (ts : List (Tri K)) : List K :=
  ts.foldl (stamp sq cell nrow ncol) (List.replicate (nrow * ncol) nodata)

/-- The triangles with the positions and values of their corners. -/
def triangles (pts : List (Pt K)) (vals : List K) (vols : List (ℕ × ℕ × ℕ)) : List (Tri K) :=
  vols.map fun v => ⟨pts.getD v.1 ⟨0, 0⟩, pts.getD v.2.1 ⟨0, 0⟩, pts.getD v.2.2 ⟨0, 0⟩, vals.getD v.1 0, vals.getD v.2.1 0, vals.getD v.2.2 0⟩

/-- `grid_values[base:base+ncols]`. -/
def rowOf (grid : List K) (ncols j : ℕ) : List K := (grid.drop (j * ncols)).take ncols

/-- The text file, sww2dem.py 441-471: rows from the north; corner and value for missing data written with `%d`. -/
def writeAsc [FloorRing K] (fmt : K → K) (f : Frame K) (cell nodata : K) (grid : List K) : Asc K :=
  ⟨f.ncols, f.nrows, .corner, .corner, (trunc f.xll : K), (trunc f.yll : K), cell, (trunc nodata : K),
    (List.range f.nrows).map fun i => (rowOf grid f.ncols (f.nrows - i - 1)).map fmt⟩

/-- The ER Mapper grid, sww2dem.py 387-419: rows reversed, corner as it is. -/
def writeErs (f : Frame K) (cell nodata : K) (grid : List K) : Dem K :=
  ⟨f.ncols, f.nrows, f.xll, f.yll, cell, nodata, ((List.range f.nrows).map fun i => rowOf grid f.ncols i).reverse⟩

/-- What is needed from the results file. -/
structure Results (K : Type*) where
  xs : List K
  ys : List K
  vols : List (ℕ × ℕ × ℕ)
  nt : ℕ
  vars : List (Var K)
  xll : K
  yll : K

/-- Grid of `sww2dem` before it is written: position and values. -/
def raster [FloorRing K] (sq : K → K) (r : Results K) (expr : List K → K) (red : Reduction K) (cell nodata : K) (w : Window K) (b : ℕ) :
    Option (Frame K × List K) :=
  (values expr red r.nt r.xs.length b r.vars).bind fun vals =>
    (frame r.xs r.ys r.xll r.yll cell w).map fun f =>
      (f, gridValues sq cell nodata f.nrows f.ncols (triangles f.pts vals r.vols))

/-- `sww2dem` to a text file. -/
def toAsc [FloorRing K] (sq fmt : K → K) (r : Results K) (expr : List K → K) (red : Reduction K) (cell nodata : K) (w : Window K) (b : ℕ) :
    Option (Asc K) :=
  (raster sq r expr red cell nodata w b).map fun g => writeAsc fmt g.1 cell nodata g.2

/-- `sww2dem` to an ER Mapper grid. -/
def toErs [FloorRing K] (sq : K → K) (r : Results K) (expr : List K → K) (red : Reduction K) (cell nodata : K) (w : Window K) (b : ℕ) :
    Option (Dem K) :=
  (raster sq r expr red cell nodata w b).map fun g => writeErs g.1 cell nodata g.2

/-- `quantity_formula['depth']`, sww2dem.py 22-25, of `[elevation, stage]`. -/
def depthExpr (l : List K) : K := l.getD 1 0 - l.getD 0 0

/-- `quantity_formula['speed']`, sww2dem.py 26-27, of `[elevation, stage, xmomentum, ymomentum]`; division by a depth of zero gives zero
here and there (`1.e-6/0` is infinite, the quotient by it zero). -/
def speedExpr (sq : K → K) (l : List K) : K :=
  let h := l.getD 1 0 - l.getD 0 0
  sq (l.getD 2 0 * l.getD 2 0 + l.getD 3 0 * l.getD 3 0) / (h + 1 / 10 ^ 6 / h)

end Verif.Dem
