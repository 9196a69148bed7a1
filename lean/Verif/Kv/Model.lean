import Verif.CG.Props
import Mathlib.Analysis.Real.Sqrt
import Mathlib.Data.List.Sort

/-!
# Model of the kinematic viscosity operator

Sources
* `/repo/anuga/operators/kinematic_viscosity_operator.c` 43-86 (`_build_geo_structure`), 139-191 (`_build_elliptic_matrix`), 249-300
  (`_update_elliptic_matrix`, the same computation)
* `/repo/anuga/operators/kinematic_viscosity_operator.py` 28-113 (`__init__`), 116-164 (`__call__`), 245-271
  (`_update_elliptic_boundary_term`), 317-345 (`_elliptic_multiply_array`), 391-418 (`_parabolic_multiply_array`), 448-486
  (`elliptic_solve`), 490-563 (`parabolic_solve`); the same functions of `/repo/anuga/operators/elliptic_operator.py`
* `/repo/anuga/shallow_water/shallow_water_domain.py` 2173-2256 (`update_centroids_of_velocities_and_height`), 2258-2295
  (`update_centroids_of_momentum_from_velocity`)
* `/repo/anuga/utilities/cg_solve.py`, as modelled in `Verif.CG`

Simplifications
* real numbers instead of floats;
* `quicksort` of four column numbers is a sort;
* the operator that is handed to `conjugate_gradient`, which calls its `__mul__`, is turned into the matrix that acts the same way;
* the distribution to vertices and edges after the update of momenta is left out (see Extrap).
-/

namespace Verif.Kv

open Verif.CG

/-- What is read from the mesh. Triangles are numbered from 0; a negative neighbour is boundary edge `- nb - 1`. -/
structure Mesh where
  nb : ℕ → Fin 3 → ℤ
  cen : ℕ → ℝ × ℝ
  mid : ℕ → Fin 3 → ℝ × ℝ
  len : ℕ → Fin 3 → ℝ
  area : ℕ → ℝ

/-- `geo_indices`, C 63-72. -/
def Mesh.index (M : Mesh) (n i : ℕ) (e : Fin 3) : ℕ :=
  if M.nb i e < 0 then n + (-(M.nb i e) - 1).toNat else (M.nb i e).toNat

/-- `other_x`, `other_y`, C 67-76. -/
def Mesh.other (M : Mesh) (i : ℕ) (e : Fin 3) : ℝ × ℝ :=
  if M.nb i e < 0 then M.mid i e else M.cen (M.nb i e).toNat

/-- `dist`, C 80. -/
noncomputable def Mesh.dist (M : Mesh) (i : ℕ) (e : Fin 3) : ℝ :=
  √(((M.cen i).1 - (M.other i e).1) * ((M.cen i).1 - (M.other i e).1) + ((M.cen i).2 - (M.other i e).2) * ((M.cen i).2 - (M.other i e).2))

/-- `geo_values`, C 81. -/
noncomputable def Mesh.geo (M : Mesh) (i : ℕ) (e : Fin 3) : ℝ := -M.len i e / M.dist i e

/-- An array of `n` values followed by boundary values. -/
def extend (n : ℕ) (u : Fin n → ℝ) (b : ℕ → ℝ) : ℕ → ℝ := fun k => if h : k < n then u ⟨k, h⟩ else b (k - n)

/-- One row of `_build_elliptic_matrix` and `_update_elliptic_matrix`: column numbers and data. `d` are `cell_data` followed by `bdry_data`. -/
noncomputable def row (idx : Fin 3 → ℕ) (geo : Fin 3 → ℝ) (d : ℕ → ℝ) (i : ℕ) : List (ℕ × ℝ) :=
  let v : Fin 3 → ℝ := fun e => if d i ≤ 0 then 0 else -(1 / 2) * (d i + d (idx e)) * geo e
  let vi : ℝ := if d i ≤ 0 then 0 else
    0 + 1 / 2 * (d i + d (idx 0)) * geo 0 + 1 / 2 * (d i + d (idx 1)) * geo 1 + 1 / 2 * (d i + d (idx 2)) * geo 2
  ([idx 0, idx 1, idx 2, i].insertionSort (· ≤ ·)).map fun k =>
    if k = i then (i, vi) else if k = idx 0 then (idx 0, v 0) else if k = idx 1 then (idx 1, v 1) else (idx 2, v 2)

/-- An operator between calls: `d` and `dB` are the diffusivity at centroids and boundary edges. -/
structure Op (n : ℕ) where
  mesh : Mesh
  useAreas : Bool
  d : Fin n → ℝ
  dB : ℕ → ℝ

variable {n : ℕ}

/-- `elliptic_matrix * X`. -/
noncomputable def Op.apply (o : Op n) (X : ℕ → ℝ) (i : Fin n) : ℝ :=
  ((row (o.mesh.index n i) (o.mesh.geo i) (extend n o.d o.dB) i).map fun p => p.2 * X p.1).sum

/-- `triangle_areas * V` if `apply_triangle_areas`. -/
noncomputable def Op.scale (o : Op n) (u : Fin n → ℝ) (i : Fin n) : ℝ := if o.useAreas then 1 / o.mesh.area i * u i else u i

/-- `_elliptic_multiply_array`. -/
noncomputable def Op.ellipticMul (o : Op n) (u : Fin n → ℝ) (i : Fin n) : ℝ := o.apply (extend n (o.scale u) fun _ => 0) i

/-- `_parabolic_multiply_array`. -/
noncomputable def Op.parabolicMul (o : Op n) (dt : ℝ) (u : Fin n → ℝ) (i : Fin n) : ℝ :=
  u i - dt * o.apply (extend n (o.scale u) fun _ => 0) i

/-- `_update_elliptic_boundary_term`. -/
noncomputable def Op.boundaryTerm (o : Op n) (b : ℕ → ℝ) (i : Fin n) : ℝ := o.scale (o.apply (extend n (fun _ => 0) b)) i

/-- Matrix of a linear function. -/
def matrixOf (f : (Fin n → ℝ) → Fin n → ℝ) : Matrix (Fin n) (Fin n) ℝ := Matrix.of fun i j => f (Pi.single j 1) i

/-- `elliptic_solve` with start values `u`, boundary values `b` and right hand side `f`. -/
noncomputable def Op.ellipticSolve (o : Op n) (u : Fin n → ℝ) (b : ℕ → ℝ) (f : Fin n → ℝ) (imax : ℕ) (tol atol : ℝ) : Res n ℝ :=
  solve (matrixOf o.ellipticMul) (fun i => f i - o.boundaryTerm b i) (some u) imax tol atol false false

/-- `parabolic_solve(u, u, ...)` with boundary values `b`. -/
noncomputable def Op.parabolicSolve (o : Op n) (dt : ℝ) (u : Fin n → ℝ) (b : ℕ → ℝ) : Res n ℝ :=
  solve (matrixOf (o.parabolicMul dt)) (fun i => u i + dt * o.boundaryTerm b i) (some u) 10000 (min dt (1 / 10 ^ 5)) (min dt (1 / 10 ^ 5))
    false false

/-- Depth, `shallow_water_domain.py` 2222-2226. -/
noncomputable def depth (w z : ℝ) : ℝ := if w - z ≥ 0 then w - z else 0

/-- Velocity, 2237-2253. -/
noncomputable def velocity (uh h : ℝ) : ℝ := uh * (h / (h * h + 1 / 10 ^ 8))

/-- Stage, bed and momenta at centroids and boundary edges. -/
structure State (n : ℕ) where
  w : Fin n → ℝ
  z : Fin n → ℝ
  uh : Fin n → ℝ
  vh : Fin n → ℝ
  wB : ℕ → ℝ
  zB : ℕ → ℝ
  uhB : ℕ → ℝ
  vhB : ℕ → ℝ

/-- Settings: `diffusivity` is 'height' (`none`) or given values, `add_safety` off. -/
structure Cfg (n : ℕ) where
  mesh : Mesh
  useAreas : Bool
  diffusivity : Option ((Fin n → ℝ) × (ℕ → ℝ))
  dtApply : ℝ

/-- Diffusivity in a call. -/
noncomputable def Cfg.op (c : Cfg n) (s : State n) : Op n :=
  match c.diffusivity with
  | none => ⟨c.mesh, c.useAreas, fun i => depth (s.w i) (s.z i), fun k => depth (s.wB k) (s.zB k)⟩
  | some d => ⟨c.mesh, c.useAreas, d.1, d.2⟩

open Classical in
/-- `__call__`, 116-164: the new `self.dt` and state; `none` if an assertion fails or a solve raises. -/
noncomputable def call (c : Cfg n) (timestep dt0 : ℝ) (s : State n) : Option (ℝ × State n) :=
  let dt := dt0 + timestep
  if dt < c.dtApply then some (dt, s)
  else
    let h := fun i => depth (s.w i) (s.z i)
    let hB := fun k => depth (s.wB k) (s.zB k)
    let o := c.op s
    if ∀ i, o.d i ≥ 0 then
      match o.parabolicSolve dt (fun i => velocity (s.uh i) (h i)) (fun k => velocity (s.uhB k) (hB k)),
        o.parabolicSolve dt (fun i => velocity (s.vh i) (h i)) (fun k => velocity (s.vhB k) (hB k)) with
      | .ok u, .ok v => some (0, { s with uh := fun i => u i * h i, vh := fun i => v i * h i })
      | _, _ => none
    else none

end Verif.Kv
