import Verif.Polygon.Model

/-!
# Model of regions of a domain and of the tests whether a triangle meets a line or a polygon

Sources
* `/repo/anuga/geometry/polygon.c` 321-440 (`__triangle_polygon_overlap`, `__polygon_overlap`), 446-556
  (`__triangle_line_intersect`, `__line_intersect`);
* `/repo/anuga/geometry/polygon.py` 221-307 (`polygon_overlap`, `not_polygon_overlap`, `line_intersect`, `not_line_intersect`);
* `/repo/anuga/abstract_2d_finite_volumes/region.py` 28-154 (`Region.__init__`), 214-297 (index set-up, `get_indices`).

Simplifications: exact ordered field; a domain is the list of its triangles with absolute corner coordinates, absolute centroids and
`tri_full_flag`; warnings and plotting left out; triangle numbers given by the user are natural numbers.
-/

namespace Verif.Region

open Verif.Polygon

variable {K : Type*} [Field K] [LinearOrder K]

/-- Three corners. -/
structure Tri (K : Type*) where
  a : Pt K
  b : Pt K
  c : Pt K

/-- The sides in the order visited by both loops over `j`. -/
def Tri.sides (t : Tri K) : List (Pt K × Pt K) := [(t.a, t.b), (t.b, t.c), (t.c, t.a)]

/-- `u_dot_tp`, `polygon.c` 476-489: zero if the line `p0 p1` and the side `t0 t1` are parallel. -/
def uDotTp (p0 p1 t0 t1 : Pt K) : K := (p1.x - p0.x) * -(t1.y - t0.y) + (p1.y - p0.y) * (t1.x - t0.x)

/-- `a = v_dot_tp/u_dot_tp`, position of the common point along `p0 p1`. -/
def paramA (p0 p1 t0 t1 : Pt K) : K :=
  ((t0.x - p0.x) * -(t1.y - t0.y) + (t0.y - p0.y) * (t1.x - t0.x)) / uDotTp p0 p1 t0 t1

/-- `b = -v_dot_pp/w_dot_pp`, position of the common point along `t0 t1`. -/
def paramB (p0 p1 t0 t1 : Pt K) : K :=
  -((t0.x - p0.x) * -(p1.y - p0.y) + (t0.y - p0.y) * (p1.x - p0.x)) /
    ((t1.x - t0.x) * -(p1.y - p0.y) + (t1.y - t0.y) * (p1.x - p0.x))

/-- The loop of `__triangle_line_intersect`, `polygon.c` 469-520, with the counters `A` and `B`. -/
def lineLoop (p0 p1 : Pt K) : List (Pt K × Pt K) → ℕ → ℕ → Bool
  | [], A, B => decide (A ≥ 1 ∧ B ≥ 1)
  | (t0, t1) :: es, A, B =>
    if uDotTp p0 p1 t0 t1 ≠ 0 then
      let a := paramA p0 p1 t0 t1
      let b := paramB p0 p1 t0 t1
      if a ≥ 0 ∧ a ≤ 1 ∧ b ≥ 0 ∧ b ≤ 1 then true
      else lineLoop p0 p1 es (if a > 1 ∧ b ≥ 0 ∧ b ≤ 1 then A + 1 else A) (if a < 0 ∧ b ≥ 0 ∧ b ≤ 1 then B + 1 else B)
    else lineLoop p0 p1 es A B

/-- `__triangle_line_intersect`; only the first two points of `line` are read (455-458). -/
def triLine (p0 p1 : Pt K) (t : Tri K) : Bool := lineLoop p0 p1 t.sides 0 0

/-- State of the two nested loops of `__triangle_polygon_overlap`. -/
structure Over where
  hit : Bool
  A : ℕ
  B : ℕ

/-- Body of the inner loop, `polygon.c` 351-403; `hit` stands for `return 1`. -/
def overStep (p0 p1 : Pt K) (s : Over) (side : Pt K × Pt K) : Over :=
  if s.hit then s
  else if uDotTp p0 p1 side.1 side.2 ≠ 0 then
    let a := paramA p0 p1 side.1 side.2
    let b := paramB p0 p1 side.1 side.2
    if a ≥ 0 ∧ a ≤ 1 ∧ b ≥ 0 ∧ b ≤ 1 then { s with hit := true }
    else
      let A := if b ≥ 0 ∧ b ≤ 1 ∧ a > 1 then s.A + 1 else s.A
      let B := if a ≥ 0 ∧ a ≤ 1 ∧ b > 1 then s.B + 1 else s.B
      ⟨decide (A = 4 ∨ B = 3), A, B⟩
  else s

/-- `__triangle_polygon_overlap`, `polygon.c` 321-409. -/
def triPoly (poly : List (Pt K)) (t : Tri K) : Bool :=
  ((edges poly).foldl (fun s e => t.sides.foldl (overStep e.1 e.2) s) ⟨false, 0, 0⟩).hit

/-- A test applied to the triangle number `k`. -/
def testAt (f : Tri K → Bool) (ts : List (Tri K)) (k : ℕ) : Bool :=
  match ts[k]? with
  | some t => f t
  | none => false

/-- `line_intersect`, `polygon.py` 261-278; an array with one row only makes the compiled code read past its end (not modelled: `none`). -/
def lineIntersect (ts : List (Tri K)) (line : List (Pt K)) : Option (List ℕ) :=
  match line with
  | p0 :: p1 :: _ =>
    let r := fill (testAt (triLine p0 p1) ts) ts.length
    some (r.1.take r.2)
  | _ => none

/-- `not_line_intersect`, `polygon.py` 290-307. -/
def notLineIntersect (ts : List (Tri K)) (line : List (Pt K)) : Option (List ℕ) :=
  match line with
  | p0 :: p1 :: _ =>
    let r := fill (testAt (triLine p0 p1) ts) ts.length
    some (r.1.drop r.2)
  | _ => none

/-- `polygon_overlap`, `polygon.py` 221-238. -/
def polygonOverlap (ts : List (Tri K)) (poly : List (Pt K)) : List ℕ :=
  let r := fill (testAt (triPoly poly) ts) ts.length
  r.1.take r.2

/-! ## Regions -/

/-- What `Region` reads of a domain. -/
structure Dom (K : Type*) where
  tris : List (Tri K)
  centroids : List (Pt K)
  full : List Bool
  parallel : Bool

/-- Arguments of `Region(domain, ...)`. -/
structure Args (K : Type*) where
  indices : Option (List ℕ)
  polygon : Option (List (Pt K))
  center : Option (Pt K)
  radius : Option K
  line : Option (List (Pt K))
  poly : Option (List (Pt K))
  expand : Bool

/-- Exceptions of `Region.__init__`. -/
inductive Err where
  | assertion
  | nothingFound
  | badLine
  | badIndex
  deriving DecidableEq, Repr

/-- The type recorded by a region. -/
inductive Kind where
  | full | empty | indices | circle | polygon | line
  deriving DecidableEq, Repr

/-- A region: `indices` (`none` is the Python `None`), `full_indices` and `type`. -/
structure Reg where
  indices : Option (List ℕ)
  fullIndices : List ℕ
  kind : Kind

/-- `num.union1d`: the sorted distinct values of both arrays. -/
def union1d (u v : List ℕ) : List ℕ := (List.range ((u ++ v).foldr max 0 + 1)).filter fun k => k ∈ u ++ v

/-- `_setup_indices_circle`, `region.py` 214-241. -/
def setupCircle (d : Dom K) (c : Pt K) (r : K) : Except Err (List ℕ) :=
  let idx := (List.range d.centroids.length).filter fun k =>
    match d.centroids[k]? with
    | some p => decide ((p.x - c.x) ^ 2 + (p.y - c.y) ^ 2 < r ^ 2)
    | none => false
  if d.parallel = false ∧ idx = [] then .error .nothingFound else .ok idx

/-- Loop over the sides of the polygon with `expand_polygon`, `region.py` 252-257. -/
def expandLoop (ts : List (Tri K)) : List (Pt K × Pt K) → List ℕ → List ℕ
  | [], idx => idx
  | e :: es, idx => expandLoop ts es (union1d ((lineIntersect ts [e.1, e.2]).getD []) idx)

/-- `_setup_indices_polygon`, `region.py` 244-270: centroids inside or on the polygon; with `expand_polygon` also triangles met by
its sides. Finding nothing only warns. -/
def setupPolygon (sq : K → K) (d : Dom K) (poly : List (Pt K)) (expand : Bool) : Except Err (List ℕ) :=
  let idx := insidePolygon sq true d.centroids poly
  .ok (if expand then expandLoop d.tris (edges poly) idx else idx)

/-- `_setup_indices_line`, `region.py` 274-289. -/
def setupLine (d : Dom K) (line : List (Pt K)) : Except Err (List ℕ) :=
  match lineIntersect d.tris line with
  | none => .error .badLine
  | some idx => if d.parallel = false ∧ idx = [] then .error .nothingFound else .ok idx

/-- `full_indices`, `region.py` 149-154. -/
def fullOf (d : Dom K) (indices : Option (List ℕ)) : Except Err (List ℕ) :=
  match indices with
  | none => .ok ((List.range d.full.length).filter fun k => d.full.getD k false)
  | some idx => if idx.all fun k => decide (k < d.full.length) then .ok (idx.filter fun k => d.full.getD k false) else .error .badIndex

/-- Finish the constructor with the indices found. -/
def finish (d : Dom K) (kind : Kind) (found : Except Err (List ℕ)) : Except Err Reg :=
  match found with
  | .error e => .error e
  | .ok idx =>
    match fullOf d (some idx) with
    | .error e => .error e
    | .ok f => .ok ⟨some idx, f, kind⟩

/-- `Region.__init__`, `region.py` 28-154. -/
def make (sq : K → K) (d : Dom K) (a : Args K) : Except Err Reg :=
  match a.indices with
  | some idx =>
    if a.radius.isNone ∧ a.center.isNone ∧ a.polygon.isNone ∧ a.line.isNone then
      finish d (if idx = [] then .empty else .indices) (.ok idx)
    else .error .assertion
  | none =>
    match a.center, a.radius with
    | some c, some r => if a.polygon.isNone ∧ a.line.isNone then finish d .circle (setupCircle d c r) else .error .assertion
    | center, radius =>
      match a.polygon with
      | some p =>
        if radius.isNone ∧ center.isNone ∧ a.line.isNone then finish d .polygon (setupPolygon sq d p a.expand) else .error .assertion
      | none =>
        match a.line with
        | some l => if radius.isNone ∧ center.isNone then finish d .line (setupLine d l) else .error .assertion
        | none =>
          match a.poly with
          | some p =>
            if radius.isNone ∧ center.isNone then
              if p.length > 2 then finish d .polygon (setupPolygon sq d p a.expand) else finish d .line (setupLine d p)
            else .error .assertion
          | none =>
            match fullOf d none with
            | .error e => .error e
            | .ok f => .ok ⟨none, f, .full⟩

/-- `get_indices`, `region.py` 292-297. -/
def Reg.get (r : Reg) (fullOnly : Bool) : Option (List ℕ) := if fullOnly then some r.fullIndices else r.indices

end Verif.Region
