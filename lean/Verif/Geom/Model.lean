import Verif.Basic
import Mathlib.Analysis.Real.Sqrt
import Mathlib.Data.Fin.VecNotation
import Mathlib.Algebra.BigOperators.Fin

/-!
# Model of the geometry computed for a mesh

Sources
* `/repo/anuga/abstract_2d_finite_volumes/general_mesh.py` 65-281 (`General_mesh.__init__`), 516-547 (`compute_vertex_coordinates`),
  599-628 (`compute_edge_midpoint_coordinates`), 856-882 (`get_extent`, `get_areas`, `get_area`)

Simplifications: real numbers instead of floats; node numbers are natural numbers (a negative number would count from the end in NumPy);
arrays over all triangles are maps.
-/

namespace Verif.Geom

/-- The three corners of a triangle. -/
abbrev Tri := Fin 3 → ℝ × ℝ

/-- `areas`, 171. -/
noncomputable def area (V : Tri) : ℝ :=
  -(((V 1).1 * (V 0).2 - (V 0).1 * (V 1).2) + ((V 2).1 * (V 1).2 - (V 1).1 * (V 2).2) + ((V 0).1 * (V 2).2 - (V 2).1 * (V 0).2)) / 2

/-- `xn0, yn0` and so on before they are divided, 206-226. -/
def side (V : Tri) : Fin 3 → ℝ × ℝ :=
  ![((V 2).1 - (V 1).1, (V 2).2 - (V 1).2), ((V 0).1 - (V 2).1, (V 0).2 - (V 2).2), ((V 1).1 - (V 0).1, (V 1).2 - (V 0).2)]

/-- `edgelengths`. -/
noncomputable def len (V : Tri) (e : Fin 3) : ℝ := √((side V e).1 ^ 2 + (side V e).2 ^ 2)

/-- `normals`, 208-236. -/
noncomputable def normal (V : Tri) (e : Fin 3) : ℝ × ℝ := ((side V e).2 / len V e, -((side V e).1 / len V e))

/-- `centroid_coordinates`, 242-243. -/
noncomputable def centroid (V : Tri) : ℝ × ℝ := (((V 0).1 + (V 1).1 + (V 2).1) / 3, ((V 0).2 + (V 1).2 + (V 2).2) / 3)

/-- `edge_midpoint_coordinates`, 620-625; also 252-259. -/
noncomputable def mid (V : Tri) : Fin 3 → ℝ × ℝ :=
  ![(0.5 * ((V 1).1 + (V 2).1), 0.5 * ((V 1).2 + (V 2).2)), (0.5 * ((V 2).1 + (V 0).1), 0.5 * ((V 2).2 + (V 0).2)),
    (0.5 * ((V 0).1 + (V 1).1), 0.5 * ((V 0).2 + (V 1).2))]

/-- `radii`, 247-279. -/
noncomputable def radius (inscribed : Bool) (V : Tri) : ℝ :=
  if inscribed = false then
    let d : Fin 3 → ℝ := fun e => √(((centroid V).1 - (mid V e).1) ^ 2 + ((centroid V).2 - (mid V e).2) ^ 2)
    min (min (d 0) (d 1)) (d 2)
  else
    let a := √(((V 0).1 - (V 1).1) ^ 2 + ((V 0).2 - (V 1).2) ^ 2)
    let b := √(((V 1).1 - (V 2).1) ^ 2 + ((V 1).2 - (V 2).2) ^ 2)
    let c := √(((V 2).1 - (V 0).1) ^ 2 + ((V 2).2 - (V 0).2) ^ 2)
    2 * area V / (a + b + c)

/-- What is stored for one triangle. -/
structure Cell where
  corner : Tri
  area : ℝ
  normal : Fin 3 → ℝ × ℝ
  len : Fin 3 → ℝ
  centroid : ℝ × ℝ
  mid : Fin 3 → ℝ × ℝ
  radius : ℝ

/-- The geometry of one triangle. -/
noncomputable def cell (inscribed : Bool) (V : Tri) : Cell := ⟨V, area V, normal V, len V, centroid V, mid V, radius inscribed V⟩

/-- Corners of a triangle given by node numbers, `compute_vertex_coordinates`. -/
def corners (nodes : List (ℝ × ℝ)) (t : Fin 3 → ℕ) : Tri := fun k => nodes.getD (t k) (0, 0)

open Classical in
/-- The geometric part of `General_mesh.__init__`: `none` if an assertion fails. -/
noncomputable def build (nodes : List (ℝ × ℝ)) (tris : List (Fin 3 → ℕ)) (inscribed : Bool) : Option (List Cell) :=
  if ∀ t ∈ tris, ∀ k, t k < nodes.length then
    let cs := tris.map fun t => cell inscribed (corners nodes t)
    if ∀ c ∈ cs, c.area > 0 then some cs else none
  else none

/-- `get_area`. -/
noncomputable def totalArea (cs : List Cell) : ℝ := (cs.map Cell.area).sum

/-- `get_extent`: least and greatest coordinates of the corners of triangles. -/
noncomputable def extent (cs : List Cell) : Option (ℝ × ℝ × ℝ × ℝ) :=
  let X := cs.flatMap fun c => [(c.corner 0).1, (c.corner 1).1, (c.corner 2).1]
  let Y := cs.flatMap fun c => [(c.corner 0).2, (c.corner 1).2, (c.corner 2).2]
  match X.min?, X.max?, Y.min?, Y.max? with
  | some a, some b, some c, some d => some (a, b, c, d)
  | _, _, _, _ => none

end Verif.Geom
