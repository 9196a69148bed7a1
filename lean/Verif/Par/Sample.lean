import Verif.Par.Props

/-!
# A strip of six triangles on two processors
-/

namespace Verif.Par

open Verif.Mesh (Tri BDict MeshData MeshErr buildMesh Across)

/-- Nodes 0 2 4 6 along the bottom, 1 3 5 7 along the top. -/
def strip : List Tri := [(0, 2, 1), (3, 1, 2), (2, 4, 3), (5, 3, 4), (4, 6, 5), (7, 5, 6)]

def stripTags : BDict := [((0, 1), "left"), ((5, 1), "right")]

/-- Triangles 0, 1, 3 on processor 1, the others on processor 0. -/
def stripPart : List ℕ := [1, 1, 0, 1, 0, 0]

/-- The hypotheses of C65 to C68 hold, with one layer of ghosts, and the parts are what one expects. -/
example : ∃ m parts, buildMesh strip stripTags = .ok m ∧ distribute 2 1 stripPart strip m.boundary = .ok parts ∧
    parts.map (fun a => (a.nFull, a.triL2g)) = [(3, [2, 4, 5, 1, 3]), (3, [0, 1, 3, 2, 4])] ∧
    parts.map (fun a => a.nodes) = [[2, 3, 4, 5, 6, 7, 1], [0, 1, 2, 3, 4, 5, 6]] ∧
    parts.map (fun a => (a.fullSend 0, a.fullSend 1)) =
      [([], [(0, 0), (1, 1)]), ([(1, 4), (2, 5)], [])] ∧
    parts.map (fun a => (a.ghostRecv 0, a.ghostRecv 1)) =
      [([], [(3, 4), (4, 5)]), ([(3, 0), (4, 1)], [])] ∧
    parts.map (fun a => a.boundary.lookup (3, 0)) = [some "ghost", none] ∧
    parts.map (fun a => a.boundary.lookup (0, 1)) = [none, some "left"] :=
  ⟨_, _, rfl, rfl, by decide +kernel, by decide +kernel, by decide +kernel, by decide +kernel, by decide +kernel,
    by decide +kernel⟩

/-- Two processors asked for, one used: refused. -/
example : distribute 2 1 [0, 0, 0, 0, 0, 0] strip [] = .error .shape := by rfl

/-- A processor without triangles: refused. -/
example : distribute 3 1 [0, 2, 0, 2, 0, 2] strip [] = .error .emptyPart := by rfl

/-- Disagreement: an edge between two triangles that carries a user tag is not crossed when ghosts are collected. If the triangles
are on different processors the local mesh then counts one boundary edge more than the serial mesh for a triangle the processor
owns, and the limiter treats that triangle differently. -/
theorem C67_interior_tag_changes_count : ∃ m parts, ∃ a : Local, ∃ ml,
    buildMesh [(0, 1, 2), (2, 3, 0)] [((0, 1), "inner")] = .ok m ∧
    distribute 2 2 [0, 1] [(0, 1, 2), (2, 3, 0)] m.boundary = .ok parts ∧ parts[0]? = some a ∧
    buildMesh a.tris a.boundary = .ok ml ∧ a.triL2g = [0] ∧ a.nFull = 1 ∧
    m.nbr.numBoundaries 0 = 2 ∧ ml.nbr.numBoundaries 0 = 3 :=
  ⟨_, _, _, _, rfl, rfl, rfl, rfl, by decide +kernel, by decide +kernel, by decide +kernel, by decide +kernel⟩

end Verif.Par
