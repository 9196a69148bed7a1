import Verif.Dem.Model
import Verif.Polygon.PropsTri
import Verif.Raster.PropsFiles

/-! # Vocabulary for the raster export: map positions, linear interpolation in a triangle, series at a point -/

set_option linter.unusedSectionVars false

namespace Verif.Dem

open Verif.Polygon Verif.Raster

variable {K : Type*} [Field K] [LinearOrder K] [IsStrictOrderedRing K]

/-- The variable has an entry for each of `n` points (and `nt` times). -/
def Var.Full (nt n : ℕ) : Var K → Prop
  | .timed v => v.length = nt ∧ ∀ r ∈ v, r.length = n
  | .static v => v.length = n

/-- Position on the map of point number `i` of the mesh. -/
def place (r : Results K) (i : ℕ) : Pt K := ⟨r.xs.getD i 0 + r.xll, r.ys.getD i 0 + r.yll⟩

/-- The file holds a mesh of proper triangles and complete variables. -/
structure Proper (r : Results K) : Prop where
  size : r.xs.length = r.ys.length
  some : r.xs ≠ []
  corner : ∀ v ∈ r.vols, v.1 < r.xs.length ∧ v.2.1 < r.xs.length ∧ v.2.2 < r.xs.length
  solid : ∀ v ∈ r.vols, ¬ Flat (place r v.1) (place r v.2.1) (place r v.2.2)
  full : ∀ v ∈ r.vars, v.Full r.nt r.xs.length

/-- The values of the quantity at point number `i`, one for each time stored. -/
def series (r : Results K) (expr : List K → K) (i : ℕ) : List K := (List.range r.nt).map fun t => expr (r.vars.map (Var.at t i))

/-- `v` is what the reduction makes of a series; index `-1` is the last time. -/
def Reduced (red : Reduction K) (s : List K) (v : K) : Prop :=
  match red with
  | .fn f => v = f s
  | .index i => (∃ k : ℕ, i = (k : ℤ) ∧ s[k]? = some v) ∨ (∃ k : ℕ, i = (k : ℤ) - s.length ∧ k < s.length ∧ s[k]? = some v)

/-- `v` is the value of the quantity at point `i`: reduced over time if some variable depends on time. -/
def NodeValue (r : Results K) (expr : List K → K) (red : Reduction K) (i : ℕ) (v : K) : Prop :=
  ((∃ q ∈ r.vars, q.isTimed = true) → Reduced red (series r expr i) v) ∧
  ((∀ q ∈ r.vars, q.isTimed = false) → v = expr (r.vars.map (Var.at 0 i)))

/-- `v` is the value at `p` of the linear function that has the values `va`, `vb`, `vc` at `a`, `b`, `c`. -/
def Linear (p a b c : Pt K) (va vb vc v : K) : Prop :=
  ∃ A B C, va = A + B * a.x + C * a.y ∧ vb = A + B * b.x + C * b.y ∧ vc = A + B * c.x + C * c.y ∧ v = A + B * p.x + C * p.y

/-- `p` is at a distance from the side `a b` of at most `1e-12` times its length. -/
def Beside (p a b : Pt K) : Prop :=
  ∃ q, OnSeg q a b ∧ (p.x - q.x) * (p.x - q.x) + (p.y - q.y) * (p.y - q.y) ≤
    1 / 10 ^ 12 * (1 / 10 ^ 12) * ((b.x - a.x) * (b.x - a.x) + (b.y - a.y) * (b.y - a.y))

/-- `p` is in the triangle or hardly outside. -/
def Touches (p a b c : Pt K) : Prop := InTri p a b c ∨ Beside p a b ∨ Beside p b c ∨ Beside p c a

/-- Triangle `v` of the mesh contains the map position `p`. -/
def Contains (r : Results K) (v : ℕ × ℕ × ℕ) (p : Pt K) : Prop := InClosedTri p (place r v.1) (place r v.2.1) (place r v.2.2)

/-- Triangle `v` of the mesh contains `p` or hardly misses it. -/
def Meets (r : Results K) (v : ℕ × ℕ × ℕ) (p : Pt K) : Prop := Touches p (place r v.1) (place r v.2.1) (place r v.2.2)

/-- One end of the map: as asked for, or that of the mesh. -/
def Edge (asked : Option K) (extreme : K → List K → Prop) (coords : List K) (origin e : K) : Prop :=
  (asked = some e) ∨ (asked = none ∧ extreme (e - origin) coords)

/-- `m` is the least entry. -/
def Least (m : K) (l : List K) : Prop := m ∈ l ∧ ∀ x ∈ l, m ≤ x

/-- `m` is the greatest entry. -/
def Greatest (m : K) (l : List K) : Prop := m ∈ l ∧ ∀ x ∈ l, x ≤ m

/-- West, east, south and north of the map. -/
structure Extent (r : Results K) (w : Window K) (west east south north : K) : Prop where
  west : Edge w.eastMin Least r.xs r.xll west
  east : Edge w.eastMax Greatest r.xs r.xll east
  south : Edge w.northMin Least r.ys r.yll south
  north : Edge w.northMax Greatest r.ys r.yll north

/-- The map position in column `k` from the west and row `j` from the south. -/
def position (west south cell : K) (k j : ℕ) : Pt K := ⟨west + (k : K) * cell, south + (j : K) * cell⟩

/-- `v` is right for the map position `p`: interpolated in a triangle there, or the value for missing data if there is none. -/
def Right (r : Results K) (expr : List K → K) (red : Reduction K) (nodata : K) (p : Pt K) (v : K) : Prop :=
  (∃ t ∈ r.vols, Meets r t p ∧ ∃ va vb vc, NodeValue r expr red t.1 va ∧ NodeValue r expr red t.2.1 vb ∧ NodeValue r expr red t.2.2 vc ∧
    Linear p (place r t.1) (place r t.2.1) (place r t.2.2) va vb vc v) ∨
  (v = nodata ∧ ∀ t ∈ r.vols, ¬ Contains r t p)

end Verif.Dem
