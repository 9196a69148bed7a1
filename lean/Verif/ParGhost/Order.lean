import Verif.Basic

/-!
# Order of exchanges and of collective operations in `evolve`

Sources: `/repo/anuga/abstract_2d_finite_volumes/generic_domain.py` 1817-1857, 1914-1971, 1974-2051, 2053-2180;
`/repo/anuga/parallel/parallel_generic_communications.py` 35-70; `/repo/anuga/parallel/parallel_shallow_water.py` 128-145.

Operators that exchange values themselves (sand dune erosion) are left out.
-/

namespace Verif.ParGhost

inductive Method | euler | rk2 | rk3
  deriving DecidableEq

/-- `ghosts`: an exchange of ghost values; `reduce`: `Allreduce` of the timestep. -/
inductive Event | ghosts | reduce
  deriving DecidableEq

/-- Settings which decide the order: timestepping method, `ghost_layer_width`, whether `fixed_flux_timestep` is set, `test_allreduce`. -/
structure Settings where
  method : Method
  width : ℕ
  fixed : Bool
  testAllreduce : Bool

/-- `update_timestep` (`parallel_shallow_water.py` 128-134, `parallel_generic_communications.py` 46-67). -/
def timestep (o : Settings) : List Event := if o.fixed && !o.testAllreduce then [] else [.reduce]

/-- One step of the method: 1914-1971 (Euler), 1974-2051 (second order; exchange at 2014-2015), 2053-2180 (third order; exchanges at 2096
and 2135). -/
def oneStep (o : Settings) : List Event :=
  match o.method with
  | .euler => timestep o
  | .rk2 => timestep o ++ if o.width < 4 then [.ghosts] else []
  | .rk3 => timestep o ++ [.ghosts] ++ [.ghosts]

/-- One call of `evolve` with `n` steps: 1818, 1834-1857. -/
def evolve (o : Settings) (n : ℕ) : List Event := .ghosts :: (List.replicate n (oneStep o ++ [.ghosts])).flatten

/-- Calls of `evolve`, one after the other. -/
def evolves (o : Settings) (ns : List ℕ) : List Event := ns.flatMap (evolve o)

/-- Whether there is a collective operation between exchange number `r` (from 0) and the next. -/
def between : List Event → ℕ → Bool
  | [], _ => false
  | .reduce :: es, r => between es r
  | .ghosts :: es, 0 => es.head? == some .reduce
  | .ghosts :: es, r + 1 => between es r

/-- Number of exchanges. -/
def exchanges (es : List Event) : ℕ := es.count .ghosts

end Verif.ParGhost
