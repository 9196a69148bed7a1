import Verif.Basic
import Mathlib.Algebra.Order.Field.Basic
import Mathlib.Data.List.GetD

/-!
# Model of river walls

Sources
* `/repo/anuga/structures/riverwall.py` 58-150 (`RiverWall.__init__`), 153-480 (`create_riverwalls`), 496-535 (`get_vertices_corresponding_to_edgeInds`),
  538-570 (`is_vertex_on_boundary`), 573-674 (`check_riverwall_connectedness`)
* `/repo/anuga/abstract_2d_finite_volumes/general_mesh.py` 599-628 (edge midpoints)
* `/repo/anuga/shallow_water/shallow_water_domain.py` 366-379 (arrays of the domain)

Simplifications: an ordered field with a square root given as a parameter instead of floats; arrays over all edges are functions of the edge number
`3 * triangle + edge`; dictionaries are lists of pairs with different keys; points of a wall are triples (the code does not refuse all others: the test in
line 326 binds `|` before `!=`); printing, the text export, and the assertion that midpoints lie between the vertices (which holds by the
definition of midpoints) are left out; NaN in a table about to be filled does not occur.
-/

namespace Verif.Wall

variable {K : Type*} [Field K] [LinearOrder K]

/-- What of the domain is used. -/
structure Dom (K : Type*) where
  /-- number of triangles -/
  n : ℕ
  /-- vertex coordinates, row `3 * triangle + vertex`, relative to the origin -/
  vert : ℕ → K × K
  xll : K
  yll : K
  /-- keys of the boundary dictionary: triangle and edge -/
  boundary : List (ℕ × ℕ)
  discontinuous : Bool

/-- Numbers of the vertices at the ends of an edge, 512-521. -/
def ends (e : ℕ) : ℕ × ℕ :=
  if e % 3 = 0 then (e + 1, e + 2) else if e % 3 = 1 then (e - 1, e + 1) else (e - 2, e - 1)

/-- `edge_coordinates`, `general_mesh.py` 620-625: edge `i` lies opposite to vertex `i`. -/
def Dom.mid (D : Dom K) (e : ℕ) : K × K :=
  let k := e / 3
  let v := D.vert
  if e % 3 = 0 then (1 / 2 * ((v (3 * k + 1)).1 + (v (3 * k + 2)).1), 1 / 2 * ((v (3 * k + 1)).2 + (v (3 * k + 2)).2))
  else if e % 3 = 1 then (1 / 2 * ((v (3 * k + 2)).1 + (v (3 * k)).1), 1 / 2 * ((v (3 * k + 2)).2 + (v (3 * k)).2))
  else (1 / 2 * ((v (3 * k)).1 + (v (3 * k + 1)).1), 1 / 2 * ((v (3 * k)).2 + (v (3 * k + 1)).2))

/-- Arrays of the domain and the river wall object that concern river walls. -/
structure St (K : Type*) where
  flux : ℕ → ℕ
  counter : List ℕ
  number : ℕ
  elevation : List K
  rowIndex : List ℤ
  edges : List ℤ
  names : List String
  table : List (List K)
  default : List (String × K)

/-- `hydraulic_variable_names`, 132. -/
def params : List String := ["Qfactor", "s1", "s2", "h1", "h2"]

/-- `default_riverwallPar`, 122-127. -/
def standard : List (String × K) := [("Qfactor", 1), ("s1", 9 / 10), ("s2", 95 / 100), ("h1", 1), ("h2", 3 / 2)]

/-- `__init__`, 112-150: the arrays of the domain are not touched. -/
def St.init (s : St K) : St K :=
  { s with elevation := [-9 * 10 ^ 20], rowIndex := [-1000000000], edges := [-1000000000], names := [], table := [[-9 * 10 ^ 20]], default := standard }

/-- A new domain, `shallow_water_domain.py` 371-378. -/
def St.fresh (D : Dom K) : St K :=
  St.init ⟨fun _ => 0, List.replicate (3 * D.n) 0, 0, [], [], [], [], [], []⟩

/-- Corner of a wall: x, y, elevation. -/
abbrev Pt3 (K : Type*) := K × K × K

/-- Segments of a wall with the number of the wall, in the order of the loops 305-316. -/
def segsOf (i : ℕ) : List (Pt3 K) → List (ℕ × Pt3 K × Pt3 K)
  | a :: b :: l => (i, a, b) :: segsOf i (b :: l)
  | _ => []

/-- All segments; walls are numbered from `i`. -/
def segsFrom (i : ℕ) : List (String × List (Pt3 K)) → List (ℕ × Pt3 K × Pt3 K)
  | [] => []
  | w :: ws => segsOf i w.2 ++ segsFrom (i + 1) ws

/-- `riverwall_elevation`, `riverwall_rowIndex` (temporary arrays over all edges) and `edge_flux_type`. -/
structure Marks (K : Type*) where
  flux : ℕ → ℕ
  elev : ℕ → K
  row : ℕ → ℤ

/-- `segLen`, 331. -/
def segLen (sq : K → K) (a b : Pt3 K) : K := sq ((a.1 - b.1) ^ 2 + (a.2.1 - b.2.1) ^ 2)

/-- `pv_dot_se`, 342-355. -/
def dot (sq : K → K) (xll yll : K) (a b : Pt3 K) (p : K × K) : K :=
  (p.1 - (a.1 - xll)) * (-(a.1 - b.1) / segLen sq a b) + (p.2 - (a.2.1 - yll)) * (-(a.2.1 - b.2.1) / segLen sq a b)

/-- `perp_len_sq`, 351-357. -/
def perp (sq : K → K) (xll yll : K) (a b : Pt3 K) (p : K × K) : K :=
  (sq ((p.1 - (a.1 - xll)) ^ 2 + (p.2 - (a.2.1 - yll)) ^ 2)) ^ 2 - dot sq xll yll a b p ^ 2

/-- `onLevee`, 361. -/
def onLevee (sq : K → K) (tol xll yll : K) (a b : Pt3 K) (p : K × K) : Bool :=
  decide (perp sq xll yll a b p < tol ^ 2) && decide (dot sq xll yll a b p > 0 - tol) && decide (dot sq xll yll a b p < segLen sq a b + tol)

/-- `w0`, 374-376. -/
def weight (sq : K → K) (xll yll : K) (a b : Pt3 K) (p : K × K) : K :=
  let w := dot sq xll yll a b p / segLen sq a b
  let w := w * (if w ≥ 0 then 1 else 0)
  w * (if w ≤ 1 then 1 else 0) + 1 * (if w > 1 then 1 else 0)

/-- One segment, 324-380. -/
def markSeg (sq : K → K) (D : Dom K) (tol : K) (m : Marks K) (s : ℕ × Pt3 K × Pt3 K) : Marks K :=
  let (i, a, b) := s
  if segLen sq a b < tol then m else
    let on := fun e => onLevee sq tol D.xll D.yll a b (D.mid e)
    let w := fun e => weight sq D.xll D.yll a b (D.mid e)
    ⟨fun e => if on e then 1 else m.flux e, fun e => if on e then a.2.2 * (1 - w e) + w e * b.2.2 else m.elev e, fun e => if on e then (i : ℤ) else m.row e⟩

/-- All segments, 288-380. -/
def mark (sq : K → K) (D : Dom K) (maxFloat tol : K) (flux : ℕ → ℕ) (walls : List (String × List (Pt3 K))) : Marks K :=
  (segsFrom 0 walls).foldl (markSeg sq D tol) ⟨flux, fun _ => 0 - maxFloat, fun _ => -1⟩

/-- Numbering of river wall edges, 406-417. -/
def number : ℕ → List ℕ → List ℕ
  | _, [] => []
  | c, f :: fs => if f = 1 then (c + 1) :: number (c + 1) fs else 0 :: number c fs

/-- A dictionary that may hold the key. -/
def has {α : Type*} (d : List (String × α)) (k : String) : Bool := d.any fun e => e.1 == k

/-- One row of the table, 431-453. -/
def tableRow (par : List (String × List (String × K))) (default : List (String × K)) (name : String) : List K :=
  params.map fun v =>
    match (par.lookup name).bind (fun d => d.lookup v) with
    | some x => x
    | none => (default.lookup v).getD 0

inductive Err where
  | unsupported
  | unknownDefault
  | unknownWall
  | unknownParameter
  | submergence
  | height
  | gap
  deriving DecidableEq

/-- First failure of the checks of `riverwallPar`, 267-281. -/
def parError (walls : List (String × List (Pt3 K))) (default : List (String × K)) : List (String × List (String × K)) → Option Err
  | [] => none
  | (w, d) :: par =>
    if !has walls w then some .unknownWall
    else if d.any fun e => !has default e.1 then some .unknownParameter
    else parError walls default par

/-- Failure of the checks of the table, 459-473. -/
def tableError (t : List (List K)) : Option Err :=
  if t.any fun r => decide (r.getD 1 0 ≥ r.getD 2 0) || (decide (r.getD 1 0 < 0) || decide (r.getD 2 0 < 0)) then some .submergence
  else if t.any fun r => decide (r.getD 3 0 ≥ r.getD 4 0) || (decide (r.getD 3 0 < 0) || decide (r.getD 4 0 < 0)) then some .height
  else none

/-! ## Connectedness -/

/-- `is_vertex_on_boundary`, 550-568, at a place. -/
def Dom.onBoundary (D : Dom K) (p : K × K) : Bool :=
  D.boundary.any fun b => decide (D.vert (ends (b.1 * 3 + b.2)).1 = p) || decide (D.vert (ends (b.1 * 3 + b.2)).2 = p)

/-- First edges with each midpoint, 619-636. -/
def unique (D : Dom K) : List ℕ → List ℕ → List ℕ
  | seen, [] => seen
  | seen, e :: es => if seen.any fun f => decide (D.mid f = D.mid e) then unique D seen es else unique D (seen ++ [e]) es

/-- `num_disconnected_edges`, 640-660. -/
def loose (D : Dom K) (u : List ℕ) : ℕ :=
  let times := fun p => u.countP (fun e => decide (D.vert (ends e).1 = p)) + u.countP (fun e => decide (D.vert (ends e).2 = p))
  (u.map fun e => if times (D.vert (ends e).1) = 1 ∧ D.onBoundary (D.vert (ends e).1) = false then 1 else 0).sum +
    (u.map fun e => if times (D.vert (ends e).2) = 1 ∧ D.onBoundary (D.vert (ends e).2) = false then 1 else 0).sum

/-- Edges of wall `i`, 606. -/
def edgesOf (edges : List ℕ) (row : List ℤ) (i : ℕ) : List ℕ := ((edges.zip row).filter fun e => decide (e.2 = (i : ℤ))).map Prod.fst

/-- `check_riverwall_connectedness`, 573-674, for the given number of walls. -/
def connected (D : Dom K) (edges : List ℕ) (row : List ℤ) (walls : ℕ) : Bool :=
  (List.range walls).all fun i =>
    let es := edgesOf edges row i
    es.isEmpty || decide (loose D (unique D [] es) ≤ 2)

/-- `create_riverwalls`, 153-480: the state left behind and the exception, if any. -/
def create (sq : K → K) (D : Dom K) (maxFloat tol : K) (verbose : Bool) (walls : List (String × List (Pt3 K)))
    (par : List (String × List (String × K))) (dflt : List (String × K)) (s : St K) : St K × Option Err :=
  if D.discontinuous = false then (s, some .unsupported) else
  let s := if s.names.length > 0 then s.init else s
  let s := { s with default := s.default.map fun e => (e.1, (dflt.lookup e.1).getD e.2) }
  if dflt.any fun e => !has s.default e.1 then (s, some .unknownDefault) else
  match parError walls s.default par with
  | some e => (s, some e)
  | none =>
    let m := mark sq D maxFloat tol s.flux walls
    let inds := (List.range (3 * D.n)).filter fun e => decide (m.flux e = 1)
    let table := walls.map fun w => tableRow par s.default w.1
    let s := { s with
      flux := m.flux
      elevation := inds.map m.elev
      rowIndex := inds.map m.row
      edges := inds.map fun e : ℕ => (e : ℤ)
      names := walls.map Prod.fst
      number := inds.length
      counter := number 0 ((List.range (3 * D.n)).map m.flux) }
    match tableError table with
    | some e => (s, some e)
    | none =>
      let s := { s with table := table }
      if verbose && !connected D inds s.rowIndex walls.length then (s, some .gap) else (s, none)

end Verif.Wall
