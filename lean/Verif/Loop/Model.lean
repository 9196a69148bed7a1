import Verif.Polygon.Model
import Mathlib.Data.List.GetD

/-!
# Model of the boundary polygon of a mesh

Sources
* `/repo/anuga/abstract_2d_finite_volumes/neighbour_mesh.py` 518-667 (`get_boundary_polygon`)
* `/repo/anuga/abstract_2d_finite_volumes/general_mesh.py` 856-872 (`get_extent`)
* `/repo/anuga/utilities/numerical_tools.py` 21-96 (`angle`)

Simplifications: an ordered field instead of floats; distances are compared by their squares (the square root is increasing); the loop is given a number of
rounds; messages are left out. If no candidate had an angle less than 2π the code would take a point of an earlier round: here an error; angles are at most π
at that place, so it does not occur.
-/

namespace Verif.Loop

open Verif.Polygon (Pt)

variable {K : Type*} [Field K] [LinearOrder K]

/-- What of the mesh is used: absolute coordinates of corners of triangles, and the keys of the boundary dictionary in their order. -/
structure Mesh (K : Type*) where
  n : ℕ
  corner : ℕ → ℕ → Pt K
  boundary : List (ℕ × ℕ)

/-- Start and end of edge `i` of triangle `k`, 544-549. -/
def Mesh.seg (M : Mesh K) (k i : ℕ) : Pt K × Pt K :=
  if i = 0 then (M.corner k 1, M.corner k 2) else if i = 1 then (M.corner k 2, M.corner k 0) else (M.corner k 0, M.corner k 1)

/-- Boundary segments in the order of the loop. -/
def Mesh.segs (M : Mesh K) : List (Pt K × Pt K) := M.boundary.map fun b => M.seg b.1 b.2

/-- Vertex coordinates. -/
def Mesh.points (M : Mesh K) : List (Pt K) := (List.range M.n).flatMap fun k => [M.corner k 0, M.corner k 1, M.corner k 2]

/-- `pmin`, 532. -/
def Mesh.pmin (M : Mesh K) : Pt K := ⟨((M.points.map Pt.x).min?).getD 0, ((M.points.map Pt.y).min?).getD 0⟩

/-- `pmax`, 533. -/
def Mesh.pmax (M : Mesh K) : Pt K := ⟨((M.points.map Pt.x).max?).getD 0, ((M.points.map Pt.y).max?).getD 0⟩

/-- Squared distance. -/
def d2 (p q : Pt K) : K := (p.x - q.x) ^ 2 + (p.y - q.y) ^ 2

/-- Search of the starting point, 542-568; `none`: no starting point. -/
def start (pmin : Pt K) : List (Pt K × Pt K) → K → Option (Pt K) → Option (Pt K)
  | [], _, p0 => p0
  | (a, b) :: es, m, p0 =>
    let s := if d2 a pmin < m then (d2 a pmin, some a) else (m, p0)
    let s := if d2 b pmin < s.1 then (d2 b pmin, some b) else s
    if s.2 = none then none else start pmin es s.1 s.2

/-- `segments[p]`, 571-574. -/
def candidates (E : List (Pt K × Pt K)) (p : Pt K) : List (Pt K) := (E.filter fun e => decide (e.1 = p)).map Prod.snd

def sub (p q : Pt K) : Pt K := ⟨p.x - q.x, p.y - q.y⟩

/-- Candidate with the minimal angle, 615-634. -/
def choose (ang : Pt K → Pt K → K) (pi : K) (prev p0 : Pt K) (l : List (Pt K)) : Option (Pt K) :=
  (l.foldl (fun s pc =>
    let ac := ang (sub pc p0) prev
    let ac := if ac > pi then ac - 2 * pi else ac
    if ac < s.1 then (ac, some pc) else s) (2 * pi, none)).2

/-- `p1`, 588-641. -/
def next (ang : Pt K → Pt K → K) (pi : K) (E : List (Pt K × Pt K)) (poly : List (Pt K)) (p0 : Pt K) : Option (Pt K) :=
  match candidates E p0 with
  | [] => none
  | [p] => some p
  | l => choose ang pi (if poly.length > 1 then sub p0 (poly.getD (poly.length - 2) p0) else ⟨1, 0⟩) p0 l

inductive Res (K : Type*) where
  | polygon (P : List (Pt K))
  | error
  | running
  deriving DecidableEq

/-- `num.allclose` of two points. -/
def close (p q : Pt K) : Bool :=
  Polygon.allclose (1 / 100000) (1 / 100000000) p.x q.x && Polygon.allclose (1 / 100000) (1 / 100000000) p.y q.y

/-- The loop 587-665. -/
def walk (ang : Pt K → Pt K → K) (pi : K) (E : List (Pt K × Pt K)) : ℕ → List (Pt K) → List (Pt K) → Pt K → Res K
  | 0, _, _, _ => .running
  | rounds + 1, poly, reg, p0 =>
    if reg.length < E.length then
      match next ang pi E poly p0 with
      | none => .error
      | some p1 =>
        if p1 ∈ reg then
          if close p1 (poly.headD p1) then .polygon poly else walk ang pi E rounds (poly ++ [p1]) reg p1
        else walk ang pi E rounds (poly ++ [p1]) (reg ++ [p1]) p1
    else .polygon poly

/-- `get_boundary_polygon`. -/
def Mesh.boundaryPolygon (M : Mesh K) (ang : Pt K → Pt K → K) (pi : K) (rounds : ℕ) : Res K :=
  match start M.pmin M.segs (d2 M.pmax M.pmin) none with
  | none => .error
  | some p0 => walk ang pi M.segs rounds [p0] [p0] p0

end Verif.Loop
