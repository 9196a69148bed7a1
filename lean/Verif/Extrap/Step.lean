import Verif.Extrap.Model
import Verif.Flux.Props
import Verif.Friction.Model

/-!
# A whole time step of the shallow water domain, put together from the modelled parts

Sources
* `/repo/anuga/abstract_2d_finite_volumes/generic_domain.py` 1914-2176: order of the calls, modelled in `Verif.Quantity`
* `/repo/anuga/shallow_water/shallow_water_domain.py` 1828-1915 (`compute_fluxes`, `distribute_to_vertices_and_edges`)
* `/repo/anuga/shallow_water/friction.py` 33-73 (the forcing term every shallow water domain starts with)

The state lists stage, x- and y-momentum of every triangle. Simplifications: the velocities, not the momenta, are
extrapolated (the default), so that the stored depths need not be part of the state; no further forcing terms.
-/

namespace Verif.Extrap

open Verif.Flux (Q3 Edge Dom Consts FSt computeFluxes)

variable {K : Type*} [Field K] [LinearOrder K] {N : ℕ}

/-- Centroid values of a state. -/
def cent (bed : Fin N → K) (q : Fin N × Fin 3 → K) : Cent N K :=
  ⟨fun k => q (k, 0), bed, fun k => q (k, 1), fun k => q (k, 2), fun _ => 0⟩

/-- State of centroid values. -/
def state (c : Cent N K) : Fin N × Fin 3 → K := fun i => ![c.stage i.1, c.xm i.1, c.ym i.1] i.2

/-- What stays fixed during a run. -/
structure World (N : ℕ) (K : Type*) where
  G : Geo N K
  p : Params K
  cs : Consts K
  /-- edge geometry, areas, river walls, flags -/
  base : Dom N K
  bed : Fin N → K
  /-- boundary values from time and inside edge values (`update_boundary`) -/
  bnd : K → Edge N → Q3 K → Q3 K
  fc : Friction.FC K
  /-- friction coefficient and vertex data -/
  fr : Fin N → Friction.Cell K
  sloped : Bool
  /-- call number of, arrays before, and substep flag of a flux computation -/
  call : K → (Fin N × Fin 3 → K) → ℤ
  arr : K → (Fin N × Fin 3 → K) → FSt N K
  first : K → (Fin N × Fin 3 → K) → Bool
  /-- timestep choice and ghost exchange are arbitrary -/
  dt : K → (Fin N × Fin 3 → K) → K
  ghosts : (Fin N × Fin 3 → K) → (Fin N × Fin 3 → K)
  thin : Bool

/-- Data of the flux computation in a state. -/
def World.dom (w : World N K) (t : K) (q : Fin N × Fin 3 → K) : Dom N K :=
  let r := distribute w.G w.p w.base.area (cent w.bed q)
  toDom w.base w.G r.1 r.2 (fun e => w.bnd t e ⟨r.2.stage e, r.2.xm e, r.2.ym e⟩)

/-- Friction data of a triangle in a state. -/
def World.cell (w : World N K) (q : Fin N × Fin 3 → K) (k : Fin N) : Friction.Cell K :=
  { w.fr k with w := q (k, 0), z := w.bed k, uh := q (k, 1), vh := q (k, 2) }

/-- What the time stepping needs. -/
def World.env (w : World N K) : Quantity.Env K (Fin N × Fin 3) where
  distribute := fun q => state (distribute w.G w.p w.base.area (cent w.bed q)).1
  expl := fun t q i =>
    let u := (computeFluxes w.cs (w.dom t q) (w.call t q) (w.first t q) 0 (w.arr t q)).upd i.1
    ![u.w, u.x, u.y] i.2
  semi := fun _ q i =>
    let u := Friction.friction w.fc w.sloped (w.cell q i.1) (0, 0)
    ![0, u.1, u.2] i.2
  dt := w.dt
  ghosts := w.ghosts
  ghostLayerThin := w.thin
  post := fun q => state (fixNegative w.base.full (cent w.bed q)).1

/-- Internal steps one after the other. -/
def World.run (w : World N K) : List Flux.Method → K → (Fin N × Fin 3 → K) → Option (Fin N × Fin 3 → K)
  | [], _, q => some q
  | m :: ms, t, q =>
    match Flux.stepOf m w.env t q with
    | none => none
    | some r => w.run ms r.time r.q

end Verif.Extrap
