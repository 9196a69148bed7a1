import Verif.Basic
import Mathlib.Analysis.SpecialFunctions.Pow.Real
import Mathlib.Analysis.SpecialFunctions.Trigonometric.Inverse

/-!
# Model of the discharge routines of culverts

Sources
* `/repo/anuga/structures/boyd_box_operator.py` 115-262 (`Boyd_box_operator`: end of `__init__`, `discharge_routine`),
  270-400 (`boyd_box_function`), 402-425 (`total_energy`), 427-460 (`smooth_discharge`)
* `/repo/anuga/structures/boyd_pipe_operator.py` 95-210 (`Boyd_pipe_operator`), 216-382 (`boyd_pipe_function`)
* `/repo/anuga/structures/weir_orifice_trapezoid_operator.py` 105-255 (`Weir_orifice_trapezoid_operator`), 262-485
  (`weir_orifice_trapezoid_function`)
* `/repo/anuga/structures/inlet_enquiry.py` 66-158 (levels and energies at the enquiry points)

Simplifications
* real numbers instead of floats; `x**y` is the real power (bases are not negative in the theorems);
* division by zero and the square root of a negative number give `none` (an exception);
* the Froude number, which is computed and not used, is left out, as are values that are overwritten before they are read;
* the critical depth of the trapezoid is found by Newton steps from 1e-5 until a step is at most 1e-5; it is a parameter.
-/

namespace Verif.Culvert

open Real

set_option linter.unusedSectionVars false

/-- `anuga.g`, `config.py` 45. -/
noncomputable def g : ℝ := 98 / 10

/-- `anuga.velocity_protection`, `config.py` 18. -/
noncomputable def vprot : ℝ := 1 / 10 ^ 6

/-- Division, raising `ZeroDivisionError`. -/
noncomputable def div? (a b : ℝ) : Option ℝ := if b = 0 then none else some (a / b)

/-- `math.sqrt`, raising `ValueError`. -/
noncomputable def sqrt? (x : ℝ) : Option ℝ := if x < 0 then none else some (√x)

/-- What the functions return: discharge, barrel velocity, outlet depth, flow area. -/
structure Flow where
  Q : ℝ
  vel : ℝ
  depth : ℝ
  area : ℝ

/-- Losses and lengths common to all structures. -/
structure Barrel where
  length : ℝ
  sumLoss : ℝ
  manning : ℝ

/-- `culvert_velocity`, e.g. `boyd_box_operator.py` 343-344: velocity at which losses use up the energy difference `dH`. -/
noncomputable def culvertVelocity (b : Barrel) (dH hyd : ℝ) : Option ℝ := do
  let f ← div? (b.manning ^ 2 * b.length) (hyd ^ (1.33333 : ℝ))
  let a ← div? dH (b.sumLoss / 2 / g + f)
  sqrt? a

/-! ## Box -/

structure Box extends Barrel where
  width : ℝ
  /-- `culvert_height` -/
  height : ℝ
  blockage : ℝ
  barrels : ℝ

/-- Area and wetted perimeter of a box of total width `W` filled to `d`, closed at the top if full. -/
noncomputable def boxSection (W height d : ℝ) : ℝ × ℝ × ℝ :=
  if d > height then (height, W * height, 2 * (W + height)) else (d, W * d, W + 2 * d)

/-- `boyd_box_function`, 270-400. `E` is `driving_energy`, `dH` is `delta_total_energy`. -/
noncomputable def boxFn (c : Box) (E dH outD : ℝ) : Option Flow :=
  let bf := 1 - c.blockage
  if c.blockage ≥ 1 then some ⟨0, 0, 0, 1 / 10 ^ 5⟩
  else
    let Qu := 0.544 * g ^ (0.5 : ℝ) * bf * c.width * c.barrels * E ^ (1.5 : ℝ)
    let Qs := 0.702 * g ^ (0.5 : ℝ) * bf * c.width * c.barrels * c.height ^ (0.89 : ℝ) * E ^ (0.61 : ℝ)
    let Q := if Qu < Qs then Qu else Qs
    let W := bf * c.width * c.barrels
    do
    let x ← div? (Q ^ 2 / g) (W ^ 2)
    let s := boxSection W c.height (x ^ (0.333333 : ℝ))
    let hyd ← div? s.2.1 s.2.2
    let _ ← culvertVelocity c.toBarrel dH hyd
    let r : ℝ × ℝ × ℝ ←
      if dH < E then do
        let s := if outD > c.height then (c.height, W * c.height, 2 * (W + c.height)) else s
        let hyd ← div? s.2.1 s.2.2
        let v ← culvertVelocity c.toBarrel dH hyd
        some (min Q (s.2.1 * v), s.1, s.2.1)
      else some (Q, s.1, s.2.1)
    let p ← div? vprot r.2.2
    let vel ← div? r.1 (r.2.2 + p)
    some ⟨r.1, vel, r.2.1, r.2.2⟩

/-! ## Pipe -/

structure Pipe extends Barrel where
  diameter : ℝ
  blockage : ℝ
  barrels : ℝ

/-- Share of the diameter left open, 237-240. -/
noncomputable def pipeOpen (blockage : ℝ) : ℝ :=
  if blockage > 0.9 then 3.333 - 3.333 * blockage else 1 - 0.4012316798 * blockage - 0.3768350138 * blockage ^ 2

/-- Depth, area and perimeter of pipes of open diameter `D` filled to `d`, 259-292 and 297-336. -/
noncomputable def pipeSection (n D d : ℝ) : ℝ × ℝ × ℝ :=
  if d ≥ D then (D, n * (D / 2) ^ 2 * π, n * D * π)
  else
    let alpha := arccos (1 - 2 * d / D) * 2
    (d, n * D ^ 2 / 8 * (alpha - sin alpha), n * (alpha * D / 2))

/-- Depth in the pipe, 250-258. -/
noncomputable def pipeDepth (D Q : ℝ) : Option ℝ := do
  let d1 := D / 1.26 * (Q / g ^ (0.5 : ℝ) * D ^ (2.5 : ℝ)) ^ (1 / 3.75 : ℝ)
  let d2 := D / 0.95 * (Q / g ^ (0.5 : ℝ) * D ^ (2.5 : ℝ)) ^ (1 / 1.95 : ℝ)
  let r ← div? d1 D
  some (if r > 0.85 then d2 else d1)

/-- `boyd_pipe_function`, 216-382. -/
noncomputable def pipeFn (c : Pipe) (E dH outD : ℝ) : Option Flow :=
  if c.blockage ≥ 1 then some ⟨0, 0, 0, 1 / 10 ^ 5⟩
  else
    let D := pipeOpen c.blockage * c.diameter
    let Qu := c.barrels * (0.421 * g ^ (0.5 : ℝ) * D ^ (0.87 : ℝ) * E ^ (1.63 : ℝ))
    let Qs := c.barrels * (0.530 * g ^ (0.5 : ℝ) * D ^ (1.87 : ℝ) * E ^ (0.63 : ℝ))
    let Q := min Qu Qs
    do
    let d ← pipeDepth D Q
    let s := pipeSection c.barrels D d
    let s := if dH < E ∧ outD > D then (D, c.barrels * (D / 2) ^ 2 * π, c.barrels * D * π) else s
    let hyd ← div? s.2.1 s.2.2
    let v ← culvertVelocity c.toBarrel dH hyd
    let Q := min Q (s.2.1 * v)
    let p ← div? vprot s.2.1
    let vel ← div? Q (s.2.1 + p)
    some ⟨Q, vel, s.1, s.2.1⟩

/-! ## Trapezoid -/

structure Weir extends Barrel where
  width : ℝ
  height : ℝ
  blockage : ℝ
  barrels : ℝ
  z1 : ℝ
  z2 : ℝ

/-- Flow area at depth `d`. -/
noncomputable def weirArea (c : Weir) (d : ℝ) : ℝ :=
  (1 - c.blockage) * c.barrels * c.width * d + 0.5 * (c.z1 + c.z2) * d ^ 2

/-- Length of the banks at depth `d`. -/
noncomputable def weirBanks (c : Weir) (d : ℝ) : ℝ :=
  (d ^ 2 + (c.z1 * d) ^ 2) ^ (0.5 : ℝ) + (d ^ 2 + (c.z2 * d) ^ 2) ^ (0.5 : ℝ)

/-- `weir_orifice_trapezoid_function`, 262-485. `crit Q` is the depth found by the loops 306-316 and their copies. -/
noncomputable def weirFn (crit : ℝ → ℝ) (c : Weir) (E dH outD : ℝ) : Option Flow :=
  let bf := 1 - c.blockage
  if c.blockage ≥ 1 then some ⟨0, 0, 0, 1 / 10 ^ 5⟩
  else
    let Qu := 1.7 * bf * c.barrels * ((2 * c.width + c.height * (c.z1 + c.z2)) / 2) * E ^ (1.5 : ℝ)
    let Qs := 0.8 * bf * c.barrels * g ^ (0.5 : ℝ) * (0.5 * c.height * (2 * c.width + c.height * (c.z1 + c.z2))) * E ^ (0.5 : ℝ)
    let Q := if Qu < Qs then Qu else Qs
    let W := bf * c.barrels * c.width
    let d := if crit Q > c.height then c.height else crit Q
    do
    let hyd ← div? (weirArea c d) (2 * W + (c.z1 + c.z2) * d + weirBanks c d)
    let v ← culvertVelocity c.toBarrel dH hyd
    let Qt := weirArea c d * v
    let r : ℝ × ℝ ←
      if dH < E then do
        let Q := if outD > c.height then Q else min Q Qt
        let d := if outD > c.height then c.height else if crit Q > c.height then c.height else crit Q
        let hyd ← div? (weirArea c d) (W + weirBanks c d)
        let v ← culvertVelocity c.toBarrel dH hyd
        some (min Q (weirArea c d * v), d)
      else some (Q, d)
    let p ← div? vprot (weirArea c r.2)
    let vel ← div? r.1 (weirArea c r.2 + p)
    some ⟨r.1, vel, r.2, weirArea c r.2⟩

/-! ## Smoothing and choice of the inflow -/

/-- Levels at an enquiry point: stage, depth above the invert, velocity head. -/
structure Enq where
  stage : ℝ
  depth : ℝ
  head : ℝ

/-- `get_enquiry_total_energy`, `inlet_enquiry.py` 147-149. -/
def Enq.total (a : Enq) : ℝ := a.head + a.stage

/-- `get_enquiry_specific_energy`, 152-154. -/
def Enq.specific (a : Enq) : ℝ := a.head + a.depth

/-- `smooth_delta_total_energy` and `smooth_Q`. -/
structure Smooth where
  dE : ℝ
  Q : ℝ

/-- `numpy.sign`. -/
noncomputable def sgn (x : ℝ) : ℝ := if x < 0 then -1 else if x > 0 then 1 else 0

/-- The factor `ts` in `total_energy`, `boyd_box_operator.py` 408-416. -/
noncomputable def factor (dt tau : ℝ) : ℝ := if dt > 0 then dt / max (max dt tau) (1 / 10 ^ 6) else 1

/-- `total_energy`, 402-425, `forward_Euler_smooth`. -/
noncomputable def smoothEnergy (old new ts : ℝ) : ℝ := old + ts * (new - old)

/-- `smooth_discharge`, 427-460: `(smooth_Q, Q, barrel_velocity)`. -/
noncomputable def smoothDischarge (dE sQ Q area ts : ℝ) : ℝ × ℝ × ℝ :=
  let sg := sgn dE
  let sQ := sQ + ts * (Q * sg - sQ)
  let Q := if sgn sQ ≠ sg then 0 else min |sQ| Q
  (sQ, Q, if area = 0 then 0 else Q / area)

/-- Result of a discharge routine: discharge, barrel velocity, whether the inflow is inlet 0, `self.delta_total_energy`. -/
structure Out where
  Q : ℝ
  vel : ℝ
  forward : Bool
  delta : ℝ

/-- Kind and dimensions of a structure: whether it is closed (height or diameter not positive), and its discharge function of
driving energy, energy difference and outlet depth. -/
structure Kind where
  closed : Bool
  fn : ℝ → ℝ → ℝ → Option Flow
  useVelocityHead : Bool

/-- The three kinds: closed if the height (`boyd_box_operator.py` 158, `weir_orifice_trapezoid_operator.py` 136) or diameter
(`boyd_pipe_operator.py` 123) is not positive. -/
noncomputable def Box.kind (c : Box) (u : Bool) : Kind := ⟨decide (c.height ≤ 0), boxFn c, u⟩

noncomputable def Pipe.kind (c : Pipe) (u : Bool) : Kind := ⟨decide (c.diameter ≤ 0), pipeFn c, u⟩

noncomputable def Weir.kind (crit : ℝ → ℝ) (c : Weir) (u : Bool) : Kind := ⟨decide (c.height ≤ 0), weirFn crit c, u⟩

/-- `discharge_routine`, `boyd_box_operator.py` 150-262 (and the same in the other two): `a` and `b` are the enquiry points of inlets 0
and 1, `delta0` is `self.delta_total_energy` before. -/
noncomputable def routine (k : Kind) (dt tau : ℝ) (a b : Enq) (delta0 : ℝ) (s : Smooth) : Option (Out × Smooth) :=
  if k.closed then some (⟨0, 0, true, delta0⟩, s)
  else
    let dE := if k.useVelocityHead then a.total - b.total else a.stage - b.stage
    let ts := factor dt tau
    let e := smoothEnergy s.dE dE ts
    let fwd := decide (e ≥ 0)
    let inflow := if e ≥ 0 then a else b
    let outflow := if e ≥ 0 then b else a
    let delta := if e ≥ 0 then e else -e
    if inflow.depth > 0.01 then
      if inflow.specific ≥ 0 then do
        let E := if k.useVelocityHead then inflow.specific else inflow.depth
        let f ← k.fn E delta outflow.depth
        let r := smoothDischarge e s.Q f.Q f.area ts
        if r.2.2 > 10 then some (⟨f.area * 10, 10, fwd, delta⟩, ⟨e, r.1⟩)
        else some (⟨r.2.1, r.2.2, fwd, delta⟩, ⟨e, r.1⟩)
      else none
    else some (⟨0, 0, fwd, delta⟩, ⟨e, s.Q⟩)

/-- End of `__init__`, 128-144: one call without smoothing, from which the smoothed values are set. -/
noncomputable def start (k : Kind) (dt : ℝ) (a b : Enq) : Option Smooth := do
  let r ← routine k dt 0 a b 0 ⟨0, 0⟩
  some ⟨1 * r.1.delta, r.1.Q⟩

/-- A sequence of calls during a run: timestep and levels at the two enquiry points. -/
noncomputable def calls (k : Kind) (tau : ℝ) : List (ℝ × Enq × Enq) → ℝ → Smooth → Option (List Out × Smooth)
  | [], _, s => some ([], s)
  | (dt, a, b) :: l, d, s =>
    match routine k dt tau a b d s with
    | none => none
    | some (o, s') =>
      match calls k tau l o.delta s' with
      | none => none
      | some (os, s'') => some (o :: os, s'')

end Verif.Culvert
