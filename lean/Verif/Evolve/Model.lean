import Mathlib.Algebra.Order.Field.Basic

/-!
# Model of the evolve loop

Source: `/repo/anuga/abstract_2d_finite_volumes/generic_domain.py`.

Simplifications
* Times are elements of a linearly ordered field (no round-off).
* The numerical scheme is represented only by the flux-limited timestep it produces for each internal step; it is
  an arbitrary input (list element).  All three integrators (`euler`, `rk2`, `rk3`, lines 1914-2180) call
  `update_timestep` exactly once, before the model time is touched, and `_evolve_base` (line 1855) resets
  `relative_time` to `initial_relative_time + timestep` afterwards, so they share one model.
* Settings are constant during a run (the user may change them between yields in reality).
* `apply_protection_against_isolated_degenerate_timesteps` (off by default) only changes the flux timestep, which is
  an arbitrary input here.
-/

namespace Verif.Evolve

/-- Settings used by `update_timestep`.
`generic_domain.py` 335-346 (initialisation), 590-596 (`set_CFL`), 694-724 (`set_evolve_max_timestep`,
`set_evolve_min_timestep`, `set_default_order`), 2332-2347 (`set_fixed_flux_timestep`); `epsilon` is
`anuga.config.epsilon`. -/
structure Params (K : Type*) where
  cfl : K
  maxStep : K
  minStep : K
  maxSmall : ℕ
  defaultOrder : ℕ
  eps : K
  fixedFlux : Option K

/-- Part of the domain state read and written by the evolve loop.
`generic_domain.py` 337 (`smallsteps`), 717-724 (`_order_`), 352-358 (`starttime`, `evolve_starttime`,
`relative_time`, `timestep`, `evolved_called`), 1778-1807 (`relative_finaltime`, `relative_yieldtime`). -/
structure St (K : Type*) where
  start : K
  evolveStart : K
  time : K
  called : Bool
  final : Option K
  yieldTime : K
  timestep : K
  small : ℕ
  order : ℕ

/-- Exceptions that can leave the loop. -/
inductive Err
  | tooSmall      -- 2377-2388 `raise Exception(msg)`
  | overshot      -- 1873-1878 `time overshot finaltime`
  | bothGiven     -- 1780-1782 both `finaltime` and `duration`
  | noFinal       -- 1792: `None < float` raises (no final time was ever given)
  deriving DecidableEq

variable {K : Type*} [Field K] [LinearOrder K]

/-- The unclipped timestep: `min(self.CFL * self.flux_timestep, self.evolve_max_timestep)`,
`generic_domain.py` 2357-2363. -/
def rawStep (P : Params K) (flux : K) : K :=
  min (P.cfl * (P.fixedFlux.getD flux)) P.maxStep

/-- The small-step counter and the order switch, `generic_domain.py` 2369-2395.
`none` is the exception of line 2388.  Returns `(smallsteps, _order_)`. -/
def smallLogic (P : Params K) (small order : ℕ) (ts : K) : Option (ℕ × ℕ) :=
  if ts < P.minStep then
    if small + 1 > P.maxSmall then
      if order = 1 then none else some (0, 1)
    else some (small + 1, order)
  else
    some (0, if order = 1 ∧ P.defaultOrder = 2 then 2 else order)

/-- Clip to the final time, `generic_domain.py` 2408-2409. -/
def clipFinal (s : St K) (ts : K) : K :=
  match s.final with
  | none => ts
  | some f => if s.time + ts > f then f - s.time else ts

/-- Clip to the yield time, `generic_domain.py` 2412-2413. -/
def clipYield (s : St K) (ts : K) : K :=
  if s.time + ts > s.yieldTime then s.yieldTime - s.time else ts

/-- `update_timestep`, `generic_domain.py` 2349-2415 (recording of extrema at 2366-2367 omitted). -/
def updateTimestep (P : Params K) (s : St K) (flux : K) : Except Err (St K) :=
  let ts := rawStep P flux
  match smallLogic P s.small s.order ts with
  | none => .error .tooSmall
  | some (small, order) =>
      .ok { s with timestep := clipYield s (clipFinal s ts), small := small, order := order }

/-- Outcome of one pass of the `while True` loop. -/
inductive Pass (K : Type*)
  | raised (e : Err)
  | quiet (s : St K)              -- no yield in this pass
  | yielded (s : St K) (t : K)    -- yields `t`, loop goes on with `s`
  | finished (s : St K) (t : K)   -- yields the final time and breaks

/-- One pass of the loop, `generic_domain.py` 1835-1912. -/
def pass (P : Params K) (yieldstep : K) (s : St K) (flux : K) : Pass K :=
  match updateTimestep P s flux with
  | .error e => .raised e
  | .ok s1 =>
    let s2 := { s1 with time := s.time + s1.timestep }                     -- 1855
    let yieldBranch : Pass K :=
      if s2.time ≥ s2.yieldTime then                                        -- 1891
        .yielded { s2 with yieldTime := s2.yieldTime + yieldstep } (s2.start + s2.time)
      else .quiet s2
    match s2.final with
    | none => yieldBranch
    | some f =>
      if s2.time ≥ f - P.eps then                                           -- 1870-1871
        if s2.time > f then .raised .overshot                               -- 1873-1878
        else .finished { s2 with time := f } (s2.start + f)                 -- 1883-1888
      else yieldBranch

/-- Result status of a run on finitely many flux timesteps. -/
inductive Status
  | running          -- the supplied flux timesteps are used up, loop still going
  | done             -- generator exhausted
  | raised (e : Err)
  deriving DecidableEq

/-- The loop driven by a list of flux timesteps; returns yielded times, status and last state. -/
def loop (P : Params K) (yieldstep : K) : St K → List K → List K × Status × St K
  | s, [] => ([], .running, s)
  | s, f :: fs =>
    match pass P yieldstep s f with
    | .raised e => ([], .raised e, s)
    | .quiet s' => loop P yieldstep s' fs
    | .yielded s' t =>
        let r := loop P yieldstep s' fs
        (t :: r.1, r.2)
    | .finished s' t => ([t], .done, s')

/-- Arguments of `domain.evolve`. -/
structure Args (K : Type*) where
  yieldstep : Option K
  finaltime : Option K
  duration : Option K
  skipInitial : Bool

/-- What `_evolve_base` does before entering the loop. -/
inductive Prep (K : Type*)
  | raised (e : Err) (s : St K)
  | returned (s : St K)                            -- `return` at line 1802: generator yields nothing
  | go (s : St K) (yieldstep : K) (skip : Bool)

/-- Preparation part of `_evolve_base`, `generic_domain.py` 1745-1807. -/
def prepare (P : Params K) (s0 : St K) (a : Args K) : Prep K :=
  let skip := a.skipInitial || s0.called                                     -- 1756-1757
  let s1 := { s0 with called := true }                                       -- 1759
  -- 1764-1765: `set_evolve_starttime(get_relative_time())`
  let s2 := if skip then { s1 with evolveStart := s1.time } else s1
  -- 1768-1769
  let s3 := if s2.time ≠ s2.evolveStart then { s2 with time := s2.evolveStart } else s2
  let ys := a.yieldstep.getD P.maxStep                                        -- 1771-1774
  let s4 := { s3 with order := P.defaultOrder }                              -- 1779
  match a.finaltime, a.duration with
  | some _, some _ => .raised .bothGiven s4                                    -- 1781-1783
  | ft, du =>
    -- 1785-1790
    let fin : Option K :=
      match ft, du with
      | some f, _ => some (f - s4.start)
      | none, some d => some (d + s4.time)
      | none, none => s4.final
    match fin with
    | none => .raised .noFinal s4                                              -- 1792
    | some f =>
      if f < s4.time then .returned { s4 with final := some s4.time }          -- 1792-1802
      else .go { s4 with final := some f, yieldTime := s4.time + ys } ys skip  -- 1806

/-- `_evolve_base`, `generic_domain.py` 1715-1912: preparation, initial yield (1826-1832), loop.
Returns the yielded times, the status and the state left behind. -/
def evolve (P : Params K) (s0 : St K) (a : Args K) (fluxes : List K) : List K × Status × St K :=
  match prepare P s0 a with
  | .raised e s => ([], .raised e, s)
  | .returned s => ([], .done, s)
  | .go s ys skip =>
    let r := loop P ys s fluxes
    if skip then r else ((s.start + s.time) :: r.1, r.2)

/-- One internal step as seen by an observer inside the domain: model time before the step, flux-limited timestep,
timestep taken, next yield time, final time. -/
structure StepObs (K : Type*) where
  time : K
  flux : K
  dt : K
  yieldTime : K
  final : Option K

/-- The internal steps taken by `loop` (same recursion as `loop`, recording instead of yielding). -/
def loopSteps (P : Params K) (yieldstep : K) : St K → List K → List (StepObs K)
  | _, [] => []
  | s, f :: fs =>
    match updateTimestep P s f with
    | .error _ => []
    | .ok s1 =>
      { time := s.time, flux := f, dt := s1.timestep, yieldTime := s.yieldTime, final := s.final } ::
        match pass P yieldstep s f with
        | .raised _ => []
        | .quiet s' => loopSteps P yieldstep s' fs
        | .yielded s' _ => loopSteps P yieldstep s' fs
        | .finished _ _ => []

/-- The internal steps taken during one `evolve` call. -/
def evolveSteps (P : Params K) (s0 : St K) (a : Args K) (fluxes : List K) : List (StepObs K) :=
  match prepare P s0 a with
  | .go s ys _ => loopSteps P ys s fluxes
  | _ => []

/-- A freshly constructed domain, `generic_domain.py` 337, 352-358, 724. -/
def fresh (P : Params K) (start : K) : St K :=
  { start := start, evolveStart := 0, time := 0, called := false, final := none,
    yieldTime := 0, timestep := 0, small := 0, order := P.defaultOrder }

/-- `set_evolve_max_timestep`, `generic_domain.py` 694-700, applied to a domain that already has a maximum. -/
def setEvolveMaxTimestep (P : Params K) (m : K) : Params K := { P with maxStep := min P.maxStep m }

end Verif.Evolve
