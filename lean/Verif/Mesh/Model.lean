import Mathlib.Data.List.Sort
import Mathlib.Data.Prod.Lex
import Mathlib.Logic.Function.Basic

/-!
# Model of the mesh neighbour structure and boundary enumeration

Sources
* `/repo/anuga/abstract_2d_finite_volumes/neighbour_table.cpp` 60-213 (`_build_neighbour_structure`)
* `/repo/anuga/abstract_2d_finite_volumes/neighbour_table_ext.pyx` (duplicate edge → AssertionError)
* `/repo/anuga/abstract_2d_finite_volumes/neighbour_mesh_ext.pyx` 9-31 (`boundary_dictionary_construct`)
* `/repo/anuga/abstract_2d_finite_volumes/neighbour_mesh.py` 296-345, 348-371, 441-505

Simplifications: node ids, triangle ids and edge ids are natural numbers (the code stores 64 bit integers; negative user ids are
not modelled); the C++ `unordered_map` is an association list; neighbour arrays are functions of (triangle, edge).
-/

namespace Verif.Mesh

/-- A triangle is its three node ids in counter-clockwise order (`triangles[k]`). -/
abbrev Tri := ℕ × ℕ × ℕ

/-- The edges inserted for triangle `k`, in insertion order: key (i,j) ↦ (vol_id, edge_id).
`neighbour_table.cpp` 84-148. -/
def entriesOf (k : ℕ) (t : Tri) : List ((ℕ × ℕ) × (ℕ × ℕ)) :=
  let (n0, n1, n2) := t
  [((n1, n2), (k, 0)), ((n2, n0), (k, 1)), ((n0, n1), (k, 2))]

/-- Insert entries one by one; `none` when a key is already present (`err = 1; break`).
`neighbour_table.cpp` 105-148, 154-156. -/
def insertAll : List ((ℕ × ℕ) × (ℕ × ℕ)) → List ((ℕ × ℕ) × (ℕ × ℕ)) → Option (List ((ℕ × ℕ) × (ℕ × ℕ)))
  | tbl, [] => some tbl
  | tbl, e :: es => if (tbl.lookup e.1).isSome then none else insertAll ((e.1, e.2) :: tbl) es

/-- All entries of the mesh in the order of the loop over `k`. -/
def allEntries (tris : List Tri) : List ((ℕ × ℕ) × (ℕ × ℕ)) :=
  (tris.zipIdx.map (fun p => entriesOf p.2 p.1)).flatten

/-- Keys looked up in step 2 for edges 0, 1, 2 of a triangle (reversed direction), `neighbour_table.cpp` 176-208. -/
def reversedKey (t : Tri) : ℕ → ℕ × ℕ
  | 0 => (t.2.2, t.2.1)
  | 1 => (t.1, t.2.2)
  | _ => (t.2.1, t.1)

/-- Result of `build_neighbour_structure`. `neighbours`/`neighbourEdges` start as -1 everywhere (general initialisation in
`neighbour_mesh.py`, lines 94-95). -/
structure Nbr where
  neighbours : ℕ × ℕ → ℤ
  neighbourEdges : ℕ × ℕ → ℤ
  numBoundaries : ℕ → ℕ

/-- Look up the reversed edge `e` of triangle `k`. -/
def lookupRev (tbl : List ((ℕ × ℕ) × (ℕ × ℕ))) (tris : List Tri) (k e : ℕ) : Option (ℕ × ℕ) :=
  match tris[k]? with
  | none => none
  | some t => if e < 3 then tbl.lookup (reversedKey t e) else none

/-- `_build_neighbour_structure` followed by the assertion in `neighbour_table_ext.pyx`; `none` is the AssertionError
"Duplicate Edge". -/
def buildNeighbours (tris : List Tri) : Option Nbr :=
  match insertAll [] (allEntries tris) with
  | none => none
  | some tbl =>
    some {
      neighbours := fun p => match lookupRev tbl tris p.1 p.2 with
        | some s => (s.1 : ℤ)
        | none => -1
      neighbourEdges := fun p => match lookupRev tbl tris p.1 p.2 with
        | some s => (s.2 : ℤ)
        | none => -1
      -- 174, 182, 193, 204: starts at 3, decremented for each edge found
      numBoundaries := fun k =>
        let dec (e n : ℕ) := if (lookupRev tbl tris k e).isSome then n - 1 else n
        dec 2 (dec 1 (dec 0 3)) }

/-- `build_surrogate_neighbour_structure`, `neighbour_mesh.py` 342-345. -/
def surrogate (nb : ℕ × ℕ → ℤ) (k e : ℕ) : ℤ := if nb (k, e) < 0 then (k : ℤ) else nb (k, e)

/-- A boundary dictionary: keys `(vol_id, edge_id)` to tags. -/
abbrev BDict := List ((ℕ × ℕ) × String)

/-- `boundary_dictionary_construct`, `neighbour_mesh_ext.pyx` 9-31; `none` is the assertion "Segment does not exist". -/
def boundaryDict (nTri : ℕ) (defaultTag : String) (nb : ℕ × ℕ → ℤ) (user : BDict) : Option BDict :=
  if user.all (fun e => decide (e.1.1 < nTri ∧ e.1.2 < 3)) then
    some (((List.range nTri).flatMap (fun k => (List.range 3).map (fun e => (k, e)))).foldl
      (fun d p => if nb p < 0 then (if (d.lookup p).isSome then d else d ++ [(p, defaultTag)]) else d) user)
  else none

/-- Python's ordering of the key tuples (`X.sort()`), lexicographic. -/
def keyLe (a b : ℕ × ℕ) : Bool := decide (a.1 < b.1 ∨ (a.1 = b.1 ∧ a.2 ≤ b.2))

/-- Result of `build_boundary_neighbours`. -/
structure BEnum where
  neighbours : ℕ × ℕ → ℤ
  enumeration : List ((ℕ × ℕ) × ℕ)
  cells : List ℕ
  edges : List ℕ
  tagCells : String → List ℕ

/-- The loop 469-476: `index` counts down from -1. -/
def enumLoop : List (ℕ × ℕ) → ℤ → (ℕ × ℕ → ℤ) → (ℕ × ℕ → ℤ)
  | [], _, nb => nb
  | p :: ps, index, nb => enumLoop ps (index - 1) (Function.update nb p index)

/-- `boundary_enumeration[id,edge] = -index - 1` in the same loop, 471-474. -/
def enumDict : List (ℕ × ℕ) → ℤ → List ((ℕ × ℕ) × ℕ)
  | [], _ => []
  | p :: ps, index => (p, (-index - 1).toNat) :: enumDict ps (index - 1)

/-- `build_boundary_neighbours`, `neighbour_mesh.py` 441-505. -/
def buildBoundary (nb : ℕ × ℕ → ℤ) (b : BDict) : BEnum :=
  let X := (b.map Prod.fst).insertionSort (fun a b => keyLe a b = true)
  let en := enumDict X (-1)
  let M := en.length
  -- 483-486: arrays of zeros, then boundary_cells[j] = id etc.
  let cells := en.foldl (fun a p => a.set p.2 p.1.1) (List.replicate M 0)
  let edges := en.foldl (fun a p => a.set p.2 p.1.2) (List.replicate M 0)
  { neighbours := enumLoop X (-1) nb
    enumeration := en
    cells := cells
    edges := edges
    -- 496-501
    tagCells := fun tag => (List.range b.length).filter (fun j =>
      b.lookup (cells.getD j 0, edges.getD j 0) = some tag) }

/-- Mesh construction, `neighbour_mesh.py` 158-170. -/
structure MeshData where
  nbr : Nbr
  boundary : BDict
  enum : BEnum

inductive MeshErr
  | duplicateEdge
  | noSuchSegment
  deriving DecidableEq

def buildMesh (tris : List Tri) (user : BDict) : Except MeshErr MeshData :=
  match buildNeighbours tris with
  | none => .error .duplicateEdge
  | some nbr =>
    match boundaryDict tris.length "exterior" nbr.neighbours user with
    | none => .error .noSuchSegment
    | some b => .ok { nbr := nbr, boundary := b, enum := buildBoundary nbr.neighbours b }

end Verif.Mesh
