import Verif.Geom.Props

/-!
# Model of the advection solver

Sources
* `/repo/anuga/advection/advection.c` 21-115 (`_compute_fluxes`); `/repo/anuga/advection/advection.py` 79-101 (`distribute_to_vertices_and_edges`),
  131-180 (`compute_fluxes`)
* `/repo/anuga/abstract_2d_finite_volumes/generic_domain.py` 1914-1972 (`evolve_one_euler_step`), 1974-2050 (`evolve_one_rk2_step`),
  2053-2176 (`evolve_one_rk3_step`), 2194-2199 (`saxpy_conserved_quantities`), 2429-2446 (`update_conserved_quantities`)
* `/repo/anuga/abstract_2d_finite_volumes/quantity.py` 2238-2251 (`extrapolate_first_order`); `quantity.c` 772-820 (`_update`)

Simplifications: real numbers instead of floats; extrapolation of first order, the only one said to be implemented for advection; no forcing terms,
so that the semi-implicit part of `_update` divides by one; one processor, so that ghosts need no exchange. A neighbour is a triangle and one of its
edges or the number of a boundary segment, in place of two integers of which the first may be negative. Boundary values come from a function of
the stage of the computation and the values in the triangles; what boundary objects do is modelled in `Verif.Bdry`.
-/

namespace Verif.Adv

open Verif.Geom

/-- What lies across an edge. -/
inductive Nb (n b : ℕ) where
  | tri (k : Fin n) (e : Fin 3)
  | bdry (m : Fin b)
  deriving DecidableEq

/-- Mesh and velocity. -/
structure Dom (n b : ℕ) where
  cell : Fin n → Cell
  nb : Fin n → Fin 3 → Nb n b
  full : Fin n → Bool
  velocity : ℝ × ℝ

variable {n b : ℕ}

/-- `normal_velocity`, advection.c 85. -/
def normalVelocity (D : Dom n b) (k : Fin n) (e : Fin 3) : ℝ := D.velocity.1 * ((D.cell k).normal e).1 + D.velocity.2 * ((D.cell k).normal e).2

/-- `qr`, 68-75. -/
def outer (D : Dom n b) (edge : Fin n → Fin 3 → ℝ) (bdry : Fin b → ℝ) (k : Fin n) (e : Fin 3) : ℝ :=
  match D.nb k e with
  | .bdry m => bdry m
  | .tri k' e' => edge k' e'

/-- `edgeflux`, 87-91. -/
noncomputable def edgeFlux (D : Dom n b) (edge : Fin n → Fin 3 → ℝ) (bdry : Fin b → ℝ) (k : Fin n) (e : Fin 3) : ℝ :=
  if normalVelocity D k e < 0 then outer D edge bdry k e * normalVelocity D k e else edge k e * normalVelocity D k e

/-- `quantity_update`, 57-108. -/
noncomputable def update (D : Dom n b) (edge : Fin n → Fin 3 → ℝ) (bdry : Fin b → ℝ) (k : Fin n) : ℝ :=
  (List.finRange 3).foldl (fun flux e => flux - edgeFlux D edge bdry k e * (D.cell k).len e) 0 / (D.cell k).area

/-- `huge_timestep`, `sys.maxsize`, advection.py 155. -/
def huge : ℝ := 2 ^ 63 - 1

/-- `optimal_timestep` of a triangle, 97-102. -/
noncomputable def optimal (D : Dom n b) (k : Fin n) : ℝ :=
  (List.finRange 3).foldl (fun t e =>
    if D.full k = true then
      if |normalVelocity D k e| ≠ 0 then
        if t > (D.cell k).radius / |normalVelocity D k e| then (D.cell k).radius / |normalVelocity D k e| else t
      else t
    else t) huge

/-- The time step returned, 55 and 110-114. -/
noncomputable def timestep (D : Dom n b) (maxTimestep : ℝ) : ℝ :=
  (List.finRange n).foldl (fun t k => if t > optimal D k then optimal D k else t) maxTimestep

/-- `extrapolate_first_order`. -/
def extrapolate (q : Fin n → ℝ) : Fin n → Fin 3 → ℝ := fun k _ => q k

/-- Boundary values, from the number of the stage and the values in the triangles. -/
abbrev Boundary (n b : ℕ) := ℕ → (Fin n → ℝ) → Fin b → ℝ

/-- One Euler step: extrapolate, boundary, fluxes, update. -/
noncomputable def euler (D : Dom n b) (B : Boundary n b) (s : ℕ) (dt : ℝ) (q : Fin n → ℝ) : Fin n → ℝ :=
  fun k => q k + dt * update D (extrapolate q) (B s q) k

/-- `saxpy_centroid_values`: `a` times the present values plus `b` times the saved ones. -/
def saxpy (a c : ℝ) (q saved : Fin n → ℝ) : Fin n → ℝ := fun k => a * q k + c * saved k

inductive Method where
  | euler
  | rk2
  | rk3
  deriving DecidableEq

/-- One time step with each of the three methods. -/
noncomputable def step (D : Dom n b) (B : Boundary n b) (m : Method) (s : ℕ) (dt : ℝ) (q : Fin n → ℝ) : Fin n → ℝ :=
  match m with
  | .euler => euler D B s dt q
  | .rk2 => saxpy 0.5 0.5 (euler D B (s + 1) dt (euler D B s dt q)) q
  | .rk3 =>
    let q1 := saxpy 0.25 0.75 (euler D B (s + 1) dt (euler D B s dt q)) q
    fun k => saxpy 2 1 (euler D B (s + 2) dt q1) q k / 3

/-- A run: time steps chosen one after the other; three stages are counted for each. -/
noncomputable def run (D : Dom n b) (B : Boundary n b) (m : Method) : ℕ → List ℝ → (Fin n → ℝ) → Fin n → ℝ
  | _, [], q => q
  | s, dt :: dts, q => run D B m (s + 3) dts (step D B m s dt q)

end Verif.Adv
