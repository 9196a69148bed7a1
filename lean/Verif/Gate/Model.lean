import Verif.Basic

/-!
# Model of internal boundaries: rating tables, pumping stations and the operator that uses them

Sources
* `/repo/anuga/structures/internal_boundary_functions.py` 31-160 (`hecras_internal_boundary_function.__init__`), 164-314 (`__call__`),
  357-388 (`remove_repeated_curve_points`), 392-477 (`pumping_station_function`)
* `/repo/anuga/structures/internal_boundary_operator.py` 105-117 (end of `__init__`), 121-134 (`discharge_routine`), 137-218
  (`discharge_routine_explicit`), 221-308 (`discharge_routine_implicit`)
* `scipy.interpolate.interp1d(kind='linear')`, default arguments: points sorted, an exception outside of their range

Simplifications
* an ordered field instead of floats;
* a row of a curve is `none` if it is blank (not a number in both columns); the free flow columns have no blanks;
* an exception is `none`; texts printed are left out;
* `scipy.optimize.root` is a parameter that returns some pair.
-/

namespace Verif.Gate

set_option linter.unusedSectionVars false

variable {K : Type*} [Field K] [LinearOrder K] [IsStrictOrderedRing K]

/-! ## Rating tables -/

/-- `numpy.nanmax` of the numbers that `f` takes from the rows that are not blank (0 for none, which does not occur). -/
def nanmax (f : K × K → K) (l : List (Option (K × K))) : K :=
  match l.filterMap id with
  | [] => 0
  | p :: l => l.foldl (fun m q => max m (f q)) (f p)

/-- The loop of `remove_repeated_curve_points`, 369-386; a row is (HW, Q); `prev` is the row before. -/
def keepRows (hmax qmax : K) : Option (K × K) → List (Option (K × K)) → List (K × K)
  | _, [] => []
  | _, none :: l => keepRows hmax qmax none l
  | prev, some p :: l =>
    if (prev.map Prod.fst = some p.1 ∧ p.1 ≠ hmax) ∨ (p.1 = hmax ∧ p.2 < qmax) then keepRows hmax qmax (some p) l
    else p :: keepRows hmax qmax (some p) l

/-- `remove_repeated_curve_points`, 357-388. -/
def removeRepeated (l : List (Option (K × K))) : List (K × K) :=
  keepRows (nanmax Prod.fst l) (nanmax Prod.snd l) none l

/-- Straight line through two points. -/
def line (p q : K × K) (x : K) : K := (q.2 - p.2) / (q.1 - p.1) * (x - p.1) + p.2

/-- The evaluation of `interp1d`: the first segment that ends at or after `x`, or the last. -/
def segment : List (K × K) → K → Option K
  | p :: q :: l, x => if x ≤ q.1 ∨ l = [] then some (line p q x) else segment (q :: l) x
  | _, _ => none

/-- `interp1d`: an exception outside of the range of the points. -/
def interp (pts : List (K × K)) (x : K) : Option K :=
  match pts.head?, pts.getLast? with
  | some a, some b => if x < a.1 ∨ x > b.1 then none else segment pts x
  | _, _ => none

/-- One curve: tail water, largest head water, points. -/
structure Curve (K : Type*) where
  tw : K
  hwMax : K
  data : List (K × K)
deriving DecidableEq

/-- The attributes set by `__init__`. -/
structure Rating (K : Type*) where
  free : List (K × K)
  lo : K
  hi : K
  curves : List (Curve K)
deriving DecidableEq

/-- `__init__`, 81-84: add the datum to head waters. -/
def shift (z : K) (l : List (Option (K × K))) : List (Option (K × K)) := l.map (Option.map fun p => (p.1 + z, p.2))

/-- The loop of `__init__`, 123-152. -/
def readCurves : List (List (Option (K × K))) → Option (List (Curve K))
  | [] => some []
  | c :: l =>
    match c with
    | some p :: _ =>
      if p.2 = 0 then
        if nanmax Prod.fst c = p.1 then if l = [] then some [] else none
        else (readCurves l).map (⟨p.1, nanmax Prod.fst c, removeRepeated c⟩ :: ·)
      else none
    | _ => none

/-- `__init__`, 62-160. -/
def build (z : K) (free : List (K × K)) (cols : List (List (Option (K × K)))) : Option (Rating K) :=
  match free with
  | [] => none
  | p :: l =>
    let fr := (p :: l).map fun q => some (q.1 + z, q.2)
    let cs := cols.map (shift z)
    if (cs.filterMap fun c => (c.head?.bind id).map Prod.fst).IsChain (· < ·) then
      (readCurves cs).map fun curves =>
        ⟨removeRepeated fr, l.foldl (fun m q => min m (q.1 + z)) (p.1 + z), nanmax Prod.fst fr, curves⟩
    else none

/-- `__call__`, 216-310, for head water not below tail water. -/
def Rating.flow (r : Rating K) (hw tw : K) : Option K :=
  if hw < r.lo then some 0
  else if hw > r.hi then none
  else if ∀ c ∈ r.curves, c.tw < tw then none
  else if ∀ c ∈ r.curves.head?, tw < c.tw then interp r.free hw
  else
    let i := (r.curves.countP fun c => decide (c.tw ≤ tw)) - 1
    match r.curves[i]? with
    | none => none
    | some a =>
      let b := (r.curves[i + 1]?).getD a
      let lowerHw := hw - tw + a.tw
      let upperHw := if i + 1 < r.curves.length then hw - tw + b.tw else lowerHw
      let w0 := if i + 1 < r.curves.length then tw - a.tw else 0
      let w1 := if i + 1 < r.curves.length then b.tw - tw else 1
      if w0 < 0 ∨ w1 < 0 then none
      else if lowerHw > max a.hwMax r.hi then none
      else if upperHw > max b.hwMax r.hi then none
      else
        match (if lowerHw ≤ a.hwMax then interp a.data lowerHw else interp r.free hw),
          (if upperHw < b.hwMax then interp b.data upperHw else interp r.free hw) with
        | some q0, some q1 => some ((w0 * q1 + w1 * q0) / (w0 + w1))
        | _, _ => none

/-- `__call__`, 164-314. -/
def Rating.call (r : Rating K) (reversal : Bool) (hw tw : K) : Option K :=
  if hw < tw then
    if reversal then (r.flow tw hw).map (· * -1) else none
  else (r.flow hw tw).map (· * 1)

/-! ## Pumping stations -/

structure Pump (K : Type*) where
  capacity : K
  start : K
  stop : K
  increase : K
  decrease : K

/-- `pump_rate` and `last_time_called`. -/
structure PumpState (K : Type*) where
  rate : K
  last : K

/-- `pumping_station_function.__init__`, 396-437. -/
def Pump.init (p : Pump K) (rate t : K) : Option (PumpState K) :=
  if p.start < p.stop then none
  else if rate > p.capacity then none
  else if p.increase < 0 ∨ p.decrease < 0 then none
  else if p.capacity < 0 ∨ rate < 0 then none
  else some ⟨rate, t⟩

/-- `pumping_station_function.__call__`, 451-477. The new rate is what is returned. -/
def Pump.call (p : Pump K) (s : PumpState K) (t hw : K) : Option (PumpState K) :=
  let dt := if t > s.last then t - s.last else 0
  if ¬ t > s.last ∧ t ≠ s.last then none
  else
    let rate := if hw < p.stop then max 0 (s.rate - dt * p.decrease)
      else if hw > p.start then min p.capacity (s.rate + dt * p.increase)
      else s.rate
    some ⟨rate, if t > s.last then t else s.last⟩

/-- Calls at given times and head waters. -/
def Pump.run (p : Pump K) : PumpState K → List (K × K) → Option (PumpState K)
  | s, [] => some s
  | s, (t, hw) :: l =>
    match p.call s t hw with
    | none => none
    | some s' => p.run s' l

/-! ## The operator -/

/-- `numpy.sign`. -/
def sgn (x : K) : K := if x < 0 then -1 else if x > 0 then 1 else 0

/-- `smooth_delta_total_energy` and `smooth_Q`. -/
structure Smooth (K : Type*) where
  dE : K
  Q : K

/-- Discharge, and whether the inflow is inlet 0. -/
structure Out (K : Type*) where
  Q : K
  forward : Bool

/-- `ts`, 173-176 and 278-282. -/
def factor (dt tau : K) : K := if dt > 0 then dt / max (max dt tau) (1 / 10 ^ 30) else 1

/-- `discharge_routine_explicit`, 137-218. `f` is `internal_boundary_function`, `E0` and `E1` are the energies (or stages) at the inlets. -/
def explicit (f : K → K → K) (height dt tau E0 E1 : K) (s : Smooth K) : Out K × Smooth K :=
  if height ≤ 0 then (⟨0, true⟩, s)
  else
    let delta := E0 - E1
    let ts := factor dt tau
    let e := s.dE + ts * (delta - s.dE)
    let e := if sgn e ≠ sgn delta then 0 else e
    let Q := if E0 ≥ E1 then f E0 (E0 - e) else f (E1 + e) E1
    let sQ := s.Q + ts * (Q - s.Q)
    (⟨if sgn sQ ≠ sgn Q then 0 else min |sQ| |Q|, decide (sQ ≥ 0)⟩, ⟨e, sQ⟩)

/-- `discharge_routine_implicit`, 221-308. `root` is what `scipy.optimize.root` returns for the function `F_to_solve` (264-269, with
`theta = 1`). -/
def implicit (root : (K × K → K × K) → K × K) (f : K → K → K) (A0 A1 dt tau E0 E1 : K) (s : Smooth K) : Out K × Smooth K :=
  let F := fun x : K × K => (x.1 * A0 - f (E0 + x.1) (E1 + x.2) * dt * -1, x.2 * A1 - f (E0 + x.1) (E1 + x.2) * dt * 1)
  let Q := if dt > 0 then f (E0 + (root F).1) (E1 + (root F).2) else f E0 E1
  let ts := factor dt tau
  let sQ := s.Q + ts * (Q - s.Q)
  let fwd := decide (Q ≥ 0)
  if sgn sQ ≠ sgn Q then (⟨0, fwd⟩, ⟨s.dE, 0⟩) else (⟨min |sQ| |Q|, fwd⟩, ⟨s.dE, sQ⟩)

/-- An operator: `implicitly` is `compute_discharge_implicitly`. -/
structure Op (K : Type*) where
  f : K → K → K
  height : K
  implicitly : Bool
  A0 : K
  A1 : K
  root : (K × K → K × K) → K × K

/-- `discharge_routine`, 121-134. -/
def Op.routine (g : Op K) (dt tau E0 E1 : K) (s : Smooth K) : Out K × Smooth K :=
  if g.implicitly then implicit g.root g.f g.A0 g.A1 dt tau E0 E1 s else explicit g.f g.height dt tau E0 E1 s

/-- End of `__init__`, 108-115: a call without smoothing sets `smooth_Q`. -/
def Op.init (g : Op K) (dt E0 E1 : K) : Smooth K :=
  let r := g.routine dt 0 E0 E1 ⟨0, 0⟩
  ⟨r.2.dE, r.1.Q⟩

/-- Calls at given steps and levels. -/
def Op.run (g : Op K) (tau : K) : Smooth K → List (K × K × K) → List (Out K) × Smooth K
  | s, [] => ([], s)
  | s, (dt, E0, E1) :: l =>
    let r := g.routine dt tau E0 E1 s
    let r' := g.run tau r.2 l
    (r.1 :: r'.1, r'.2)

end Verif.Gate
