import Mathlib.Algebra.Order.Field.Basic
import Mathlib.Data.Fintype.Basic

/-!
# Model of Quantity updates, Runge-Kutta combination, interpolation and limiters

Sources
* `/repo/anuga/abstract_2d_finite_volumes/quantity.c` 131-769 (extrapolation, limiters, interpolation, backup, saxpy), 772-820 (`_update`)
* `/repo/anuga/abstract_2d_finite_volumes/quantity_ext.pyx` (`update` raises when `_update` returns nonzero)
* `/repo/anuga/abstract_2d_finite_volumes/generic_domain.py` 1914-2176 (euler, rk2, rk3 steps)
* `/repo/anuga/utilities/util_ext.h` 52-150 (`_gradient`, `_gradient2`)

Simplifications: exact ordered field instead of doubles; loops over triangles whose body touches only its own triangle are
written for one triangle.
-/

namespace Verif.Quantity

variable {K : Type*} [Field K] [LinearOrder K]

/-! ## Semi-implicit update -/

/-- Centroid value, explicit update and semi-implicit update of one triangle. -/
structure Cell (K : Type*) where
  c : K
  e : K
  s : K

/-- First loop of `_update`, `quantity.c` 785-792. -/
def divide (x : Cell K) : Cell K := { x with s := if x.c = 0 then 0 else x.s / x.c }

/-- Second loop, 796-798. -/
def explicit (dt : K) (x : Cell K) : Cell K := { x with c := x.c + dt * x.e }

/-- Third loop with its early `return -1`, 803-811; the Boolean tells success. -/
def semiLoop (dt : K) : List (Cell K) → Bool × List (Cell K)
  | [] => (true, [])
  | x :: xs =>
    let denominator := 1 - dt * x.s
    if denominator ≤ 0 then (false, x :: xs)
    else
      let r := semiLoop dt xs
      (r.1, { x with c := x.c / denominator } :: r.2)

/-- `_update`, `quantity.c` 772-820. -/
def update (dt : K) (cells : List (Cell K)) : Bool × List (Cell K) :=
  let r := semiLoop dt ((cells.map divide).map (explicit dt))
  if r.1 then (true, r.2.map (fun x => { x with s := 0 })) else r

/-! ## Runge-Kutta steps -/

/-- What one domain supplies to a time step. The index type `ι` runs over (conserved quantity, triangle). -/
structure Env (K ι : Type*) where
  /-- `distribute_to_vertices_and_edges`: may change centroid values (depth protection) -/
  distribute : (ι → K) → (ι → K)
  /-- explicit update after `update_boundary`, `compute_fluxes`, `compute_forcing_terms` at the given time -/
  expl : K → (ι → K) → (ι → K)
  /-- semi-implicit update after the same calls -/
  semi : K → (ι → K) → (ι → K)
  /-- timestep chosen by `update_timestep` after the first flux computation -/
  dt : K → (ι → K) → K
  /-- `update_ghosts` -/
  ghosts : (ι → K) → (ι → K)
  /-- ghosts are refreshed inside rk2 only for a thin ghost layer, `generic_domain.py` 2011-2012 -/
  ghostLayerThin : Bool
  /-- what `update_conserved_quantities` of the shallow water domain does after the update itself (`fix_negative_cells`,
  `shallow_water_domain.py` 2116-2150); nothing in the generic domain -/
  post : (ι → K) → (ι → K) := fun q => q

variable {ι : Type*} [Fintype ι]

/-- `update_conserved_quantities`, one cell at a time; `none` is the exception of a failed update. -/
def updateAll (dt : K) (q e s : ι → K) : Option (ι → K) :=
  let s' := fun i => if q i = 0 then 0 else s i / q i
  if ∀ i, 0 < 1 - dt * s' i then some (fun i => (q i + dt * e i) / (1 - dt * s' i)) else none

/-- State after a step: values, time, and the times at which fluxes and forcing were evaluated. -/
structure StepResult (K ι : Type*) where
  q : ι → K
  time : K
  dt : K
  evalTimes : List K

/-- `saxpy_conserved_quantities(a, b)`: `a*current + b*backup`, `quantity.c` 752-769. -/
def saxpy (a b : K) (q backup : ι → K) : ι → K := fun i => a * q i + b * backup i

/-- `evolve_one_euler_step`, `generic_domain.py` 1914-1972; the caller adds the step to the time (line 1856). -/
def eulerStep (env : Env K ι) (t : K) (q : ι → K) : Option (StepResult K ι) :=
  let q0 := env.distribute q
  let dt := env.dt t q0
  match updateAll dt q0 (env.expl t q0) (env.semi t q0) with
  | none => none
  | some u1 => some { q := env.post u1, time := t + dt, dt := dt, evalTimes := [t] }

/-- `evolve_one_rk2_step`, 1974-2045. -/
def rk2Step (env : Env K ι) (t : K) (q : ι → K) : Option (StepResult K ι) :=
  let backup := q
  let q0 := env.distribute q
  let dt := env.dt t q0
  match updateAll dt q0 (env.expl t q0) (env.semi t q0) with
  | none => none
  | some u1 =>
    let q1 := env.post u1
    let t1 := t + dt
    let q1' := if env.ghostLayerThin then env.ghosts q1 else q1
    let q1'' := env.distribute q1'
    match updateAll dt q1'' (env.expl t1 q1'') (env.semi t1 q1'') with
    | none => none
    | some u2 => some { q := saxpy (1 / 2) (1 / 2) (env.post u2) backup, time := t1, dt := dt, evalTimes := [t, t1] }

/-- `evolve_one_rk3_step`, 2053-2176. -/
def rk3Step (env : Env K ι) (t : K) (q : ι → K) : Option (StepResult K ι) :=
  let backup := q
  let q0 := env.distribute q
  let dt := env.dt t q0
  match updateAll dt q0 (env.expl t q0) (env.semi t q0) with
  | none => none
  | some u1 =>
    let t1 := t + dt
    let q1'' := env.distribute (env.ghosts (env.post u1))
    match updateAll dt q1'' (env.expl t1 q1'') (env.semi t1 q1'') with
    | none => none
    | some u2 =>
      let qh := saxpy (1 / 4) (3 / 4) (env.post u2) backup
      let t2 := t + dt * (1 / 2)
      let qh'' := env.distribute (env.ghosts qh)
      match updateAll dt qh'' (env.expl t2 qh'') (env.semi t2 qh'') with
      | none => none
      | some u3 =>
        some { q := fun i => saxpy 2 1 (env.post u3) backup i / 3, time := t + dt, dt := dt, evalTimes := [t, t1, t2] }

/-! ## Interpolation between vertices, edges and centroids -/

/-- Three values of a triangle, by vertex or by edge number. -/
structure V3 (K : Type*) where
  v0 : K
  v1 : K
  v2 : K
  deriving DecidableEq

/-- `_interpolate_from_vertices_to_edges` (and the edge part of `_interpolate`), `quantity.c` 665-710. -/
def toEdges (v : V3 K) : V3 K := ⟨1 / 2 * (v.v1 + v.v2), 1 / 2 * (v.v0 + v.v2), 1 / 2 * (v.v0 + v.v1)⟩

/-- Centroid part of `_interpolate`, `quantity.c` 665-681. -/
def toCentroid (v : V3 K) : K := (v.v0 + v.v1 + v.v2) / 3

/-- `_interpolate_from_edges_to_vertices`, `quantity.c` 713-732. -/
def toVertices (e : V3 K) : V3 K := ⟨e.v1 + e.v2 - e.v0, e.v2 + e.v0 - e.v1, e.v0 + e.v1 - e.v2⟩

/-! ## Gradients -/

/-- `_gradient`, `util_ext.h` 52-94. -/
def gradient (x0 y0 x1 y1 x2 y2 q0 q1 q2 : K) : K × K :=
  let det := (y2 - y0) * (x1 - x0) - (y1 - y0) * (x2 - x0)
  (((y2 - y0) * (q1 - q0) - (y1 - y0) * (q2 - q0)) / det, ((x1 - x0) * (q2 - q0) - (x2 - x0) * (q1 - q0)) / det)

/-- `_gradient2`, `util_ext.h` 97-155. -/
def gradient2 (x0 y0 x1 y1 q0 q1 : K) : K × K :=
  let xx := x1 - x0
  let yy := y1 - y0
  let qq := q1 - q0
  let det := xx * xx + yy * yy
  (xx * qq / det, yy * qq / det)

/-- `_extrapolate_from_gradient`, vertex values, `quantity.c` 155-158 and 213-216. -/
def extrapolate (x y qc a b : K) (X Y : V3 K) : V3 K :=
  ⟨qc + a * (X.v0 - x) + b * (Y.v0 - y), qc + a * (X.v1 - x) + b * (Y.v1 - y), qc + a * (X.v2 - x) + b * (Y.v2 - y)⟩

/-! ## Limiters -/

/-- The ratio computed in every limiter loop: `r = 1; if (dq > 0) r = (qmax-qc)/dq; if (dq < 0) r = (qmin-qc)/dq`. -/
def ratio (qc qmin qmax dq : K) : K :=
  if dq > 0 then (qmax - qc) / dq else if dq < 0 then (qmin - qc) / dq else 1

/-- `phi = fmin(fmin(r*beta, 1.0), phi)`. -/
def phiStep (beta r phi : K) : K := min (min (r * beta) 1) phi

/-- Smallest and largest of the centroid value and the values of existing neighbours (`none` = boundary). -/
def lowest (qc : K) (n : List (Option K)) : K :=
  n.foldl (fun m o => match o with | none => m | some q => min m q) qc
def highest (qc : K) (n : List (Option K)) : K :=
  n.foldl (fun m o => match o with | none => m | some q => max m q) qc

/-- The limiting factor of `_limit_vertices_by_all_neighbours`, `_limit_edges_by_all_neighbours` and
`_extrapolate_and_limit_from_gradient`: one common range for the three values. -/
def phiAll (beta qc : K) (n : List (Option K)) (v : V3 K) : K :=
  let r := fun x => ratio qc (lowest qc n) (highest qc n) (x - qc)
  phiStep beta (r v.v2) (phiStep beta (r v.v1) (phiStep beta (r v.v0) 1))

/-- The limiting factor of `_limit_edges_by_neighbour`, `quantity.c` 452-504: own range per edge. -/
def phiEach (beta qc : K) (n0 n1 n2 : Option K) (v : V3 K) : K :=
  let r := fun n x => ratio qc (lowest qc [n]) (highest qc [n]) (x - qc)
  phiStep beta (r n2 v.v2) (phiStep beta (r n1 v.v1) (phiStep beta (r n0 v.v0) 1))

/-- The limiting factor of `_limit_gradient_by_neighbour`, `quantity.c` 507-560: edges without neighbour are skipped. -/
def phiSkip (beta qc : K) (n0 n1 n2 : Option K) (v : V3 K) : K :=
  let step := fun n x phi => match n with
    | none => phi
    | some q => phiStep beta (ratio qc (min qc q) (max qc q) (x - qc)) phi
  step n2 v.v2 (step n1 v.v1 (step n0 v.v0 1))

/-- The limiting factor of `_bound_vertices_below_by_constant/quantity`, `quantity.c` 563-662; `b` is the bound at each
vertex. -/
def phiBelow (qc : K) (b v : V3 K) : K :=
  let r := fun b x => if x - qc < 0 then (b - qc) / (x - qc) else 1
  phiStep 1 (r b.v2 v.v2) (phiStep 1 (r b.v1 v.v1) (phiStep 1 (r b.v0 v.v0) 1))

/-- `qc + phi*dqa[i]` for the three values. -/
def scale (qc phi : K) (v : V3 K) : V3 K := ⟨qc + phi * (v.v0 - qc), qc + phi * (v.v1 - qc), qc + phi * (v.v2 - qc)⟩

/-- Vertex limiter: new vertex values and edge values. `quantity.c` 299-360. -/
def limitVertices (beta qc : K) (n : List (Option K)) (v : V3 K) : V3 K × V3 K :=
  let v' := scale qc (phiAll beta qc n v) v
  (v', ⟨1 / 2 * (v'.v1 + v'.v2), 1 / 2 * (v'.v2 + v'.v0), 1 / 2 * (v'.v0 + v'.v1)⟩)

/-- Edge limiter: new edge values and vertex values. `quantity.c` 366-449. -/
def limitEdges (beta qc : K) (n : List (Option K)) (e : V3 K) : V3 K × V3 K :=
  let e' := scale qc (phiAll beta qc n e) e
  (e', toVertices e')

/-- Edge limiter with own range per edge. `quantity.c` 452-504. -/
def limitEdgesEach (beta qc : K) (n0 n1 n2 : Option K) (e : V3 K) : V3 K × V3 K :=
  let e' := scale qc (phiEach beta qc n0 n1 n2 e) e
  (e', toVertices e')

/-- `_limit_gradient_by_neighbour`. `quantity.c` 507-560. -/
def limitEdgesSkip (beta qc : K) (n0 n1 n2 : Option K) (e : V3 K) : V3 K × V3 K :=
  let e' := scale qc (phiSkip beta qc n0 n1 n2 e) e
  (e', toVertices e')

/-- `_extrapolate_and_limit_from_gradient`, `quantity.c` 175-294: edge values and vertex values. -/
def extrapolateAndLimit (beta x y qc a b : K) (X Y : V3 K) (n : List (Option K)) : V3 K × V3 K :=
  let v := extrapolate x y qc a b X Y
  limitEdges beta qc n ⟨1 / 2 * (v.v1 + v.v2), 1 / 2 * (v.v2 + v.v0), 1 / 2 * (v.v0 + v.v1)⟩

/-- `_bound_vertices_below_by_*`. -/
def boundBelow (qc : K) (b v : V3 K) : V3 K := scale qc (phiBelow qc b v) v

end Verif.Quantity
