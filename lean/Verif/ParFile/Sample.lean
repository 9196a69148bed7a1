import Verif.ParFile.Props
import Verif.ParFile.PropsLocal
import Verif.Par.Sample
import Mathlib.Data.Rat.Floor

/-! Six triangles on two processors, whose ghosts hold nonsense. -/

namespace Verif.ParFile

open Verif.Par
open Verif.Mesh (Tri BDict MeshData buildMesh)
open Verif.Sww (Part Stored mergeParallel Merged)

def stripX : List ℚ := [0, 0, 1, 1, 2, 2, 3, 3]
def stripY : List ℚ := [0, 1, 0, 1, 0, 1, 0, 1]

/-- Serial values: at node `n` and time `s`, and at triangle `t`. -/
def stageAt (s n : ℕ) : ℚ := 10 * s + n
def stageC (s t : ℕ) : ℚ := 100 * s + t

/-- What a processor holds: serial values at own triangles, -9999 at ghosts. -/
def held (a : Local) : Data ℚ where
  vars n := if n = "stage" then some (.dynamic ((List.range 2).map fun s => a.nodes.map (stageAt s)))
    else if n = "elevation" then some (.static (a.nodes.map fun n : ℕ => -(n : ℚ))) else none
  varsC n := if n = "stage" then some (.dynamic ((List.range 2).map fun s =>
      a.triL2g.zipIdx.map fun x => if x.2 < a.nFull then stageC s x.1 else -9999)) else none

def serialV (n : String) : Held ℚ := if n = "stage" then .dynamic stageAt else if n = "elevation" then .static fun n => -(n : ℚ) else .absent
def serialC (n : String) : Held ℚ := if n = "stage" then .dynamic stageC else .absent

theorem held_nodes (a : Local) (n : String) : Piece 2 a.nodes.length (OwnNode a) (serialV n) ((held a).vars n) := by
  unfold serialV held
  simp only
  split_ifs
  · refine ⟨_, rfl, by simp, by simp, ?_⟩
    intro s row hs k i hki
    obtain ⟨h1, _⟩ := hki
    rw [List.getElem?_map] at hs
    have hs2 : s < 2 := by
      by_contra hc
      rw [List.getElem?_eq_none (by simpa using hc)] at hs; cases hs
    rw [List.getElem?_range hs2] at hs
    have := Option.some.inj hs
    subst this
    rw [List.getElem?_map, h1]; rfl
  · refine ⟨_, rfl, by simp, ?_⟩
    intro k i hki
    rw [List.getElem?_map, hki.1]; rfl
  · rfl

theorem held_tris (a : Local) (hl : a.triL2g.length = a.tris.length) (n : String) :
    Piece 2 a.tris.length (OwnTri a) (serialC n) ((held a).varsC n) := by
  unfold serialC held
  simp only
  split_ifs
  · refine ⟨_, rfl, by simp, by simp [hl], ?_⟩
    intro s row hs k i hki
    obtain ⟨h1, h2⟩ := hki
    rw [List.getElem?_map] at hs
    have hs2 : s < 2 := by
      by_contra hc
      rw [List.getElem?_eq_none (by simpa using hc)] at hs; cases hs
    rw [List.getElem?_range hs2] at hs
    have := Option.some.inj hs
    subst this
    rw [List.getElem?_map, List.getElem?_zipIdx, h2]
    simp [h1]
  · rfl

theorem strip_points : Points strip stripX stripY := by
  refine ⟨rfl, by decide, ?_⟩
  have : ∀ n < 8, ∃ T ∈ strip, n = T.1 ∨ n = T.2.1 ∨ n = T.2.2 := by decide
  exact this

/-- The hypotheses of `C103_smooth` hold for six triangles on two processors, and the merged file is the serial one. -/
example : ∃ m parts a0, (stripTags.map Prod.fst).Nodup ∧ buildMesh strip stripTags = .ok m ∧ stripPart.length = strip.length ∧
    distribute 2 1 stripPart strip m.boundary = .ok parts ∧ parts[0]? = some a0 ∧ Points strip stripX stripY ∧
    (∀ (p : ℕ) (a : Local), parts[p]? = some a → ∀ n, Piece 2 a.nodes.length (OwnNode a) (serialV n) ((held a).vars n)) ∧
    (∀ (p : ℕ) (a : Local), parts[p]? = some a → ∀ n, Piece 2 a.tris.length (OwnTri a) (serialC n) ((held a).varsC n)) ∧
    a0.nodes.length ≠ 3 * a0.tris.length ∧ 2 ≠ a0.nodes.length ∧ 2 ≠ a0.tris.length ∧
    (mergeParallel (files (smoothFile 2 6 stripX stripY 0 [0, 1]) parts fun p => held (parts.getD p a0))).map (fun r => (r.x, r.y)) =
      some (stripX, stripY) ∧
    (mergeParallel (files (smoothFile 2 6 stripX stripY 0 [0, 1]) parts fun p => held (parts.getD p a0))).map (fun r => r.varsC) =
      some [("stage", .dynamic [[0, 1, 2, 3, 4, 5], [100, 101, 102, 103, 104, 105]])] :=
  ⟨_, _, _, by decide, rfl, rfl, rfl, rfl, strip_points, fun p a _ n => held_nodes a n,
    fun p a ha n => held_tris a (C65_local_copies (user := stripTags) (tris := strip) (epart := stripPart) (N := 2) (width := 1) (by decide) rfl rfl rfl p a ha).1 n, by decide +kernel, by decide +kernel, by decide +kernel,
    by decide +kernel, by decide +kernel⟩

/-- The processor 0 of the strip has triangles 2 and 4 of its own, which share node 4. -/
example : ∃ m parts, ∃ a : Local, buildMesh strip stripTags = .ok m ∧ distribute 2 1 stripPart strip m.boundary = .ok parts ∧ parts[0]? = some a ∧
    a.triL2g[0]? = some 2 ∧ a.triL2g[1]? = some 4 ∧ strip[2]? = some (2, 4, 3) ∧ strip[4]? = some (4, 6, 5) ∧ a.nodes.length < 3 * a.tris.length :=
  ⟨_, _, _, rfl, rfl, rfl, by decide +kernel, by decide +kernel, rfl, rfl, by decide +kernel⟩

/-- The hypotheses of `C103_part` hold for its first triangle. -/
example : ∃ m parts, ∃ a : Local, ∃ T, buildMesh strip stripTags = .ok m ∧ distribute 2 1 stripPart strip m.boundary = .ok parts ∧ parts[0]? = some a ∧
    a.tris[0]? = some T ∧ ∀ T ∈ a.tris, T.1 < a.nodes.length ∧ T.2.1 < a.nodes.length ∧ T.2.2 < a.nodes.length :=
  ⟨_, _, _, _, rfl, rfl, rfl, rfl, by decide +kernel⟩

/-- Serial values at corners, and what a processor holds in the other format. -/
def cornerAt (s c : ℕ) : ℚ := 1000 * s + c

def heldCorners (a : Local) : Data ℚ where
  vars n := if n = "stage" then some (.dynamic ((List.range 2).map fun s =>
    a.triL2g.flatMap fun t => [cornerAt s (3 * t), cornerAt s (3 * t + 1), cornerAt s (3 * t + 2)])) else none
  varsC := (held a).varsC

def serialCorners (n : String) : Held ℚ := if n = "stage" then .dynamic cornerAt else .absent

theorem held_corners (a : Local) (hl : a.triL2g.length = a.tris.length) (n : String) :
    Piece 2 (3 * a.tris.length) (OwnCorner a) (serialCorners n) ((heldCorners a).vars n) := by
  unfold serialCorners heldCorners
  simp only
  split_ifs
  · refine ⟨_, rfl, by simp, ?_, ?_⟩
    · intro row hrow
      obtain ⟨s, _, rfl⟩ := List.mem_map.mp hrow
      rw [List.length_flatMap]
      simp [← hl, mul_comm]
    intro s row hs k i hki
    obtain ⟨l, t, c, hc, ⟨_, h2⟩, rfl, rfl⟩ := hki
    rw [List.getElem?_map] at hs
    have hs2 : s < 2 := by
      by_contra hc
      rw [List.getElem?_eq_none (by simpa using hc)] at hs; cases hs
    rw [List.getElem?_range hs2] at hs
    have := Option.some.inj hs
    subst this
    rw [flatMap_three _ _ (fun _ => rfl) l c hc, h2, Option.bind_some]
    match c, hc with
    | 0, _ => rfl
    | 1, _ => rfl
    | 2, _ => rfl
  · rfl

/-- The hypotheses of `C103_plain` hold, and the merged file has the serial corners. -/
example : ∃ m parts a0, (stripTags.map Prod.fst).Nodup ∧ buildMesh strip stripTags = .ok m ∧ stripPart.length = strip.length ∧
    distribute 2 1 stripPart strip m.boundary = .ok parts ∧ parts[0]? = some a0 ∧ Points strip stripX stripY ∧
    (∀ (p : ℕ) (a : Local), parts[p]? = some a → ∀ n, Piece 2 (3 * a.tris.length) (OwnCorner a) (serialCorners n) ((heldCorners a).vars n)) ∧
    (∀ (p : ℕ) (a : Local), parts[p]? = some a → ∀ n, Piece 2 a.tris.length (OwnTri a) (serialC n) ((heldCorners a).varsC n)) ∧
    2 ≠ 3 * a0.tris.length ∧ 2 ≠ a0.tris.length ∧
    (mergeParallel (files (plainFile 2 6 stripX stripY 0 [0, 1]) parts fun p => heldCorners (parts.getD p a0))).map (fun r => (r.x, r.vars)) =
      some ([0, 1, 0, 1, 0, 1, 1, 2, 1, 2, 1, 2, 2, 3, 2, 3, 2, 3],
        [("stage", .dynamic [[0, 1, 2, 3, 4, 5, 6, 7, 8, 9, 10, 11, 12, 13, 14, 15, 16, 17],
          [1000, 1001, 1002, 1003, 1004, 1005, 1006, 1007, 1008, 1009, 1010, 1011, 1012, 1013, 1014, 1015, 1016, 1017]])]) :=
  ⟨_, _, _, by decide, rfl, rfl, rfl, rfl, strip_points,
    fun p a ha n => held_corners a (C65_local_copies (user := stripTags) (tris := strip) (epart := stripPart) (N := 2) (width := 1) (by decide) rfl rfl rfl p a ha).1 n,
    fun p a ha n => held_tris a (C65_local_copies (user := stripTags) (tris := strip) (epart := stripPart) (N := 2) (width := 1) (by decide) rfl rfl rfl p a ha).1 n,
    by decide +kernel, by decide +kernel, by decide +kernel⟩

end Verif.ParFile
