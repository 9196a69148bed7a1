import Verif.Kv.Model
import Mathlib.Algebra.BigOperators.Fin

/-!
# What is expected of diffusion between triangles
-/

namespace Verif.Kv

/-- Neighbours are mutual, edges are shared, numbers are distinct, sizes are positive. -/
structure Mesh.Conforming (M : Mesh) (n : ℕ) : Prop where
  inner : ∀ i < n, ∀ e, 0 ≤ M.nb i e → ∃ j < n, M.nb i e = j ∧ j ≠ i ∧ ∃ e', M.nb j e' = i ∧ M.len j e' = M.len i e
  distinct : ∀ i < n, Function.Injective (M.nb i)
  len : ∀ i < n, ∀ e, 0 < M.len i e
  apart : ∀ i < n, ∀ e, M.cen i ≠ M.other i e
  area : ∀ i < n, 0 < M.area i

/-- Value at the place numbered `k`: a triangle, or the boundary edge `- k - 1` if negative. -/
def value {n : ℕ} (u : Fin n → ℝ) (b : ℕ → ℝ) (k : ℤ) : ℝ :=
  if k < 0 then b (-k - 1).toNat else if h : k.toNat < n then u ⟨k.toNat, h⟩ else 0

/-- Distance from the centroid to the centroid across the edge, or to the midpoint of a boundary edge. -/
noncomputable def Mesh.gap (M : Mesh) (i : ℕ) (e : Fin 3) : ℝ :=
  √(((M.other i e).1 - (M.cen i).1) ^ 2 + ((M.other i e).2 - (M.cen i).2) ^ 2)

/-- How much flows through an edge per difference of values: mean diffusivity times length over distance. -/
noncomputable def conductance {n : ℕ} (M : Mesh) (d : Fin n → ℝ) (dB : ℕ → ℝ) (i : Fin n) (e : Fin 3) : ℝ :=
  (d i + value d dB (M.nb i e)) / 2 * M.len i e / M.gap i e

/-- Diffusive inflow of `u` into triangle `i`, through all three edges. Nothing flows into a triangle without diffusivity. -/
noncomputable def inflow {n : ℕ} (M : Mesh) (d : Fin n → ℝ) (dB : ℕ → ℝ) (u : Fin n → ℝ) (b : ℕ → ℝ) (i : Fin n) : ℝ :=
  if d i ≤ 0 then 0 else ∑ e, conductance M d dB i e * (value u b (M.nb i e) - u i)

/-- All triangles have the same area, or areas are not used. -/
def Op.Even {n : ℕ} (o : Op n) (a : ℝ) : Prop :=
  (o.useAreas = false ∧ a = 1) ∨ (o.useAreas = true ∧ ∀ i : Fin n, o.mesh.area i = a)

/-- Every triangle is linked by neighbours to one with a boundary edge. -/
inductive Linked (M : Mesh) (n : ℕ) : ℕ → Prop
  | edge (i : ℕ) (e : Fin 3) (hi : i < n) (h : M.nb i e < 0) : Linked M n i
  | step (i j : ℕ) (e : Fin 3) (hi : i < n) (h : M.nb i e = j) (hj : Linked M n j) : Linked M n i

end Verif.Kv
