import Verif.Basic
import Mathlib.Analysis.Real.Sqrt

/-!
# Model of the operators which collect maxima during a run

Sources
* `/repo/anuga/operators/collect_max_quantities_operator.py` 33-82 (`__init__`), 85-110 (`__call__`), 130-143 (`export_max_quantities_to_csv`);
* `/repo/anuga/operators/collect_max_stage_operator.py` 24-52;
* `/repo/anuga/abstract_2d_finite_volumes/quantity.py` 255-278 (`maximum`);
* `/repo/anuga/abstract_2d_finite_volumes/generic_domain.py` 1835-1855 (the loop: step, operators, clock), 1914-1972 (Euler), 2011, 2093, 2176 (where the clock is set in the
  other methods);
* `/repo/anuga/config.py` (`max_float`).

Simplifications: real arithmetic; `x**0.5` is the square root; the file written by `savetxt` is its rows of numbers.
-/

namespace Verif.MaxOps

noncomputable section

/-- Centroid values of one triangle. -/
structure Cell where
  stage : ℝ
  elev : ℝ
  xmom : ℝ
  ymom : ℝ

abbrev State (n : ℕ) := Fin n → Cell

def maxFloat : ℝ := 10 ^ 36

/-- `Collect_max_quantities_operator`. `minH` is the domain's `minimum_allowed_height`. -/
structure Op (n : ℕ) where
  freq : ℝ
  start : ℝ
  zeroH : ℝ
  minH : ℝ
  counter : ℕ
  stage : Fin n → ℝ
  depth : Fin n → ℝ
  speed : Fin n → ℝ
  speedDepth : Fin n → ℝ

/-- `__init__`, 33-82; `none` where the assertion fails. -/
def mk (n : ℕ) (minH : ℝ) (freq : ℝ := 1) (start : ℝ := 0) (zeroH : Option ℝ := none) : Option (Op n) :=
  if freq > 0 then
    some { freq := freq, start := start, zeroH := zeroH.getD minH, minH := minH, counter := 0, stage := fun _ => 0 - maxFloat, depth := fun _ => 0,
           speed := fun _ => 0, speedDepth := fun _ => 0 }
  else none

/-- The block of `__call__`, 96-110. -/
def collect {n : ℕ} (o : Op n) (q : State n) : Op n :=
  let norm := fun i => Real.sqrt ((q i).xmom ^ 2 + (q i).ymom ^ 2)
  let local' := fun i => max ((q i).stage - (q i).elev) o.minH
  { o with
    stage := fun i => max (o.stage i) (q i).stage
    speedDepth := fun i => max (o.speedDepth i) (norm i)
    depth := fun i => max (o.depth i) (local' i)
    speed := fun i => max (o.speed i) (norm i / local' i * (if local' i > o.zeroH then 1 else 0)) }

/-- `__call__`, 85-110, at time `t` with the values `q`. -/
def call {n : ℕ} (o : Op n) (t : ℝ) (q : State n) : Op n :=
  if t > o.start then
    let o := { o with counter := o.counter + 1 }
    if (o.counter : ℝ) = o.freq then { collect o q with counter := 0 } else o
  else o

/-- All calls of a run. -/
def calls {n : ℕ} (o : Op n) (l : List (ℝ × State n)) : Op n := l.foldl (fun o c => call o c.1 c.2) o

/-- `export_max_quantities_to_csv`, 130-143: the rows of the triangles whose flag is not zero. -/
def exportRows {n : ℕ} (o : Op n) (full : Fin n → ℤ) (x y : Fin n → ℝ) (xll yll : ℝ) : List (List ℝ) :=
  ((List.finRange n).filter fun i => full i ≠ 0).map fun i => [x i + xll, y i + yll, o.stage i, o.depth i, o.speed i, o.speedDepth i]

/-! ### When the operator is called -/

/-- The three ways of stepping. -/
inductive Method | euler | rk2 | rk3
  deriving DecidableEq

/-- The clock when the operators are called, after a step of `dt` begun at `t`: Euler's step (`generic_domain.py` 1914-1972) leaves the clock alone, the
others set it (2011, 2093-2176). -/
def clock (m : Method) (t dt : ℝ) : ℝ := if m = .euler then t else t + dt

/-- The calls during a run, `generic_domain.py` 1835-1855: `steps` are the lengths of the steps and the values after each; the clock is set after
the operators (1855). -/
def callsOf {n : ℕ} (m : Method) : ℝ → List (ℝ × State n) → List (ℝ × State n)
  | _, [] => []
  | t, (dt, q) :: steps => (clock m t dt, q) :: callsOf m (t + dt) steps

/-! ### `Collect_max_stage_operator` -/

/-- The values of a quantity. -/
structure Values (n : ℕ) where
  vertex : Fin n → Fin 3 → ℝ
  edge : Fin n → Fin 3 → ℝ
  centroid : Fin n → ℝ

/-- `Quantity.maximum`, `quantity.py` 274-276. -/
def Values.maximum {n : ℕ} (a b : Values n) : Values n where
  vertex := fun i k => max (a.vertex i k) (b.vertex i k)
  edge := fun i k => max (a.edge i k) (b.edge i k)
  centroid := fun i => max (a.centroid i) (b.centroid i)

/-- `__init__`, `collect_max_stage_operator.py` 37-38. -/
def maxStage0 (n : ℕ) : Values n := ⟨fun _ _ => -10 ^ 100, fun _ _ => -10 ^ 100, fun _ => -10 ^ 100⟩

/-- Every call, 47-52. -/
def maxStage {n : ℕ} (l : List (Values n)) : Values n := l.foldl Values.maximum (maxStage0 n)

/-- The values seen by the calls during a run by Euler's method: the centroid values are those after the step, those at vertices and edges were extrapolated from the
centroid values before it (`generic_domain.py` 1914-1929). `vert` and `edge` stand for the extrapolation; `qs` are the centroid values after each step. -/
def seen {n : ℕ} (vert edge : (Fin n → ℝ) → Fin n → Fin 3 → ℝ) : (Fin n → ℝ) → List (Fin n → ℝ) → List (Values n)
  | _, [] => []
  | q, q' :: qs => ⟨vert q, edge q, q'⟩ :: seen vert edge q' qs

end

end Verif.MaxOps
