import Verif.SetQ.Model
import Mathlib.Analysis.Real.Sqrt
import Mathlib.Analysis.SpecialFunctions.Exp
import Mathlib.Analysis.SpecialFunctions.Pow.Real
import Mathlib.Algebra.Order.Floor.Defs

/-!
# Model of the friction operators and of setting stage and momentum

Sources
* `/repo/anuga/operators/mannings_operator.py` 8-63 (`Mannings_operator`);
* `/repo/anuga/operators/set_friction_operators.py` 24-115 (`Set_depth_friction_operator`);
* `/repo/anuga/operators/set_w_uh_vh_operator.py` 25-145 (`Set_w_uh_vh_operator`).

Simplifications: reals for Manning's formula; the region is a list of triangles or all of them (Python's `None`).
-/

namespace Verif.Erode

open Verif.SetQ

/-! ## Mannings_operator -/

/-- What the operator reads and writes at one triangle. -/
structure Flow where
  stage : ℝ
  elev : ℝ
  xmom : ℝ
  ymom : ℝ

/-- Length of the momentum, `num.sqrt( self.xmom_c**2 + self.ymom_c**2 )`. -/
noncomputable def Flow.speed (f : Flow) : ℝ := Real.sqrt (f.xmom ^ 2 + f.ymom ^ 2)

/-- `gamma_c`, `mannings_operator.py` 45-48. -/
noncomputable def gamma (g n : ℝ) (f : Flow) : ℝ :=
  let h := f.stage - f.elev
  if h > 0 then -g * n ^ 2 * f.speed / h ^ (7 / 3 : ℝ) else -100

/-- `Mannings_operator.__call__` at one triangle, `mannings_operator.py` 41-60. -/
noncomputable def manning (g n dt : ℝ) (f : Flow) : Flow :=
  { f with xmom := Real.exp (gamma g n f * dt) * f.xmom, ymom := Real.exp (gamma g n f * dt) * f.ymom }

/-! ## Set_depth_friction_operator -/

variable {K : Type*} [Field K] [LinearOrder K]

/-- A Python number. -/
inductive Num (K : Type*) where
  | int (z : ℤ)
  | float (x : K)

/-- `int(x)`: towards zero. -/
def truncate [FloorRing K] (x : K) : ℤ := if 0 ≤ x then ⌊x⌋ else ⌈x⌉

/-- Conversion to the type of the first result. -/
def Num.as [FloorRing K] (first : Num K) (v : Num K) : K :=
  match first, v with
  | .int _, .int z => (z : K)
  | .int _, .float x => (truncate x : K)
  | .float _, .int z => (z : K)
  | .float _, .float x => x

/-- The operator's function: callable, a number, or anything else (refused), `set_friction_operators.py` 72-84. -/
inductive Friction (K : Type*) where
  | missing
  | call (f : K → Num K)
  | number (v : Num K)
  | other

/-- The function applied to one depth; `none` is `ValueError` of the constructor. -/
def Friction.fn : Friction K → Option (K → Num K)
  | .missing => none
  | .call f => some f
  | .number v => some fun _ => v
  | .other => none

/-- `np.vectorize(f)(a)`: the type of the first result is that of the whole array; `none` is `ValueError` for an empty array. -/
def vectorize [FloorRing K] (f : K → Num K) : List K → Option (List K)
  | [] => none
  | a :: l => some ((a :: l).map fun b => (f a).as (f b))

/-- Constructor and `__call__`, `set_friction_operators.py` 72-112: new friction values; `none` is an exception. -/
def depthFriction [FloorRing K] (d : Dom K) (fr : Friction K) (indices : Option (List ℕ)) (s : State K) (friction : ℕ → K) :
    Option (ℕ → K) :=
  match fr.fn with
  | none => none
  | some f =>
    let ids := cells d indices
    match vectorize f (ids.map fun k => s.stage k - s.elev k) with
    | none => none
    | some vs => some (put friction ids vs)

/-! ## Set_w_uh_vh_operator -/

/-- What `get_w_uh_vh` returns: `None`, a number (cannot be indexed), or three values, `set_w_uh_vh_operator.py` 103-145. -/
inductive Triple (K : Type*) where
  | nothing
  | number (v : K)
  | three (w uh vh : K)

/-- `Set_w_uh_vh_operator.__call__`, `set_w_uh_vh_operator.py` 71-100; `none` is an exception. -/
def setFlow (d : Dom K) (v : Triple K) (indices : Option (List ℕ)) (s : State K) : Option (State K) :=
  match v with
  | .nothing => some s
  | .number _ => none
  | .three w uh vh =>
    let ids := cells d indices
    some { s with
      stage := put s.stage ids (ids.map fun _ => w)
      xmom := put s.xmom ids (ids.map fun _ => uh)
      ymom := put s.ymom ids (ids.map fun _ => vh) }

end Verif.Erode
