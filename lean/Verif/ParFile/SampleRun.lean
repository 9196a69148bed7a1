import Verif.ParFile.PropsRun
import Verif.ParFile.Sample
import Verif.ParRun.Sample
import Verif.NodeAvg.Model
import Mathlib.Data.List.Sort

/-! A run whose files are merged, and node values that differ from those of the serial run. -/

set_option linter.unusedSectionVars false

namespace Verif.ParFile

open Verif.Par
open Verif.Mesh (Tri BDict MeshData buildMesh)
open Verif.Sww (Part Stored mergeParallel Merged)
open Verif.ParRun (Idx Event Proc Setting run parEnv serialEnv localWorld handOut serialNo stripM stripW fresh worldOf_setting)
open Verif.NodeAvg (nodeAverageCentroid IsArgsort)

/-- The strip on two processors with three layers of ghosts. -/
def strip3 : List Local :=
  match distribute 2 3 [0, 0, 1, 1, 1, 1] strip stripM.boundary with
  | .ok a => a
  | .error _ => []

/-- The hypotheses of `C103_run` hold: two outputs, at the start and after one Euler step. -/
example : (stripTags.map Prod.fst).Nodup ∧ buildMesh strip stripTags = .ok stripM ∧
    ([0, 0, 1, 1, 1, 1] : List ℕ).length = strip.length ∧ distribute 2 3 [0, 0, 1, 1, 1, 1] strip stripM.boundary = .ok strip3 ∧
    Setting strip stripTags stripM strip3 stripW (fun p => fresh (strip3[p]).tris.length) ∧
    (∀ es ∈ ([[], [.step .euler fun _ => 1 / 100]] : List (List (Event ℚ))), ∀ mth choose, Event.step mth choose ∈ es →
      (mth = .rk2 → 3 < 4 ∨ 6 ≤ 3) ∧ ∀ x : ℚ, 0 ≤ x → 0 ≤ choose x) ∧
    ∃ a0, strip3[0]? = some a0 ∧ a0.nodes.length ≠ 3 * a0.tris.length ∧ 2 ≠ a0.nodes.length ∧ 2 ≠ a0.tris.length := by
  refine ⟨by decide, rfl, rfl, rfl, ?_, ?_, _, rfl, by decide +kernel, by decide +kernel, by decide +kernel⟩
  · exact worldOf_setting _ _ _ _ (by decide +kernel) (by decide +kernel) rfl (by decide +kernel) (by decide +kernel) (by decide +kernel) rfl
      (by decide +kernel)
  · intro es hes mth choose hst
    rcases List.mem_cons.mp hes with rfl | hes
    · simp at hst
    · rw [List.mem_singleton] at hes
      subst hes
      rw [List.mem_singleton] at hst
      cases hst
      exact ⟨fun _ => .inl (by norm_num), fun _ _ => by norm_num⟩

/-! ### Values at nodes -/

/-- Six triangles around node 0. -/
def fan : List Tri := [(0, 1, 2), (0, 2, 3), (0, 3, 4), (0, 4, 5), (0, 5, 6), (0, 6, 1)]
def fanX : List ℚ := [0, 2, 1, -1, -2, -1, 1]
def fanY : List ℚ := [0, 0, 2, 2, 0, -2, -2]

/-- The stage is 6 in triangle 3 and 0 elsewhere. -/
def fanStage (t : ℕ) : ℚ := if t = 3 then 6 else 0

def flatOf (l : List Tri) : List ℕ := l.flatMap fun T => [T.1, T.2.1, T.2.2]

def sortedCorners (flat : List ℕ) : List ℕ := (List.range flat.length).insertionSort fun a b => flat.getD a 0 ≤ flat.getD b 0

/-- What a processor stores at its nodes (`quantity.py` 2204-2223, values constant in each triangle), holding the right stage in all its triangles, ghosts too. -/
def averaged (a : Local) : Data ℚ where
  vars n := if n = "stage" then some (.static ((List.range a.nodes.length).map
    (nodeAverageCentroid (flatOf a.tris) (sortedCorners (flatOf a.tris)) fun k => fanStage (a.triL2g.getD k 0)))) else none
  varsC _ := none

/-- Disagreement: values at nodes are averages over the triangles a processor has, and with the default two layers of ghosts a processor need not have all the
triangles around a node of its own triangle (`C66`: layers cross edges, not corners). Here processor 1 owns triangle 0 and lacks triangle 3, opposite to it
around node 0. Every processor holds the serial stage in every one of its triangles, yet the merged file has 0 at node 0, where the serial run
stores 1. -/
theorem C103_node_values_differ : ∃ m parts a0, buildMesh fan [] = .ok m ∧ distribute 2 2 [1, 0, 0, 0, 0, 0] fan m.boundary = .ok parts ∧
    parts[0]? = some a0 ∧
    (mergeParallel (files (smoothFile 2 6 fanX fanY 0 [0]) parts fun p => averaged (parts.getD p a0))).map (fun r => r.vars) =
      some [("stage", .static [0, 0, 0, 0, 3, 3, 0])] ∧
    IsArgsort (flatOf fan) (sortedCorners (flatOf fan)) ∧ nodeAverageCentroid (flatOf fan) (sortedCorners (flatOf fan)) fanStage 0 = 1 :=
  ⟨_, _, _, rfl, rfl, rfl, by decide +kernel, ⟨List.perm_insertionSort _ _, by decide +kernel⟩, by decide +kernel⟩

end Verif.ParFile
