import Verif.TagRegion.Props

/-!
# Values at centroids, and a small mesh
-/

namespace Verif.TagRegion

section
variable {K Tag Name : Type} [Field K] [DecidableEq Tag] [DecidableEq Name]

/-- C124. Setting values at centroids of one region makes the quantity constant in every triangle of the mesh, also outside the region, where only the
values at centroids stay. -/
theorem C124_centroids (tags : List Tag) (a : Act K Tag Name) (ha : a.loc = .centroids) (ht : a.tag ∈ tags) (s : State K Name) (k : ℕ) :
    (∀ i, (setTagRegion tags [a] s a.answer k).v i = (setTagRegion tags [a] s a.answer k).c) ∧
    (tags[k]? ≠ some a.tag → (setTagRegion tags [a] s a.answer k).c = (s a.answer k).c) := by
  rw [C124_after, List.foldl_cons, List.foldl_nil]
  unfold after
  rw [if_pos ⟨rfl, ht⟩, ha]
  refine ⟨fun i => rfl, ?_⟩
  intro hk
  have : k ∉ region tags a.tag := by
    unfold region
    rw [Finset.mem_filter]
    exact fun e => hk e.2
  simp [this, fromC]

end

/-- Three triangles: two in a lake, one on land. -/
def tags3 : List String := ["lake", "land", "lake"]

/-- A slope, and zero for the other quantity. -/
def start : State ℚ String := fun q k => if q = "elevation" then ⟨fun i => (k : ℚ) + ((i : ℕ) : ℚ), (k : ℚ) + 1⟩ else ⟨fun _ => 0, 0⟩

/-- The elevation of the lake is levelled one above its mean; the stage is 3 on land; the stage gets the elevation added in the lake. -/
def acts3 : List (Act ℚ String String) :=
  [.add "lake" "elevation" "elevation" 1 true .vertices, .set "land" "stage" 3 .vertices, .sum "lake" "stage" "elevation" .vertices,
    .set "sea" "stage" 9 .centroids]

example : (setTagRegion tags3 acts3 start "elevation" 0).v 2 = 3 ∧ (setTagRegion tags3 acts3 start "elevation" 1).v 2 = 3 ∧
    (setTagRegion tags3 acts3 start "stage" 1).v 0 = 3 ∧ (setTagRegion tags3 acts3 start "stage" 2).c = 3 ∧
    (setTagRegion tags3 acts3 start "elevation" 1).v 0 = 1 := by decide +kernel

/-- The hypotheses of `C124_others` for the elevation on land. -/
example : (∀ a ∈ acts3, a.answer = "elevation" → a.loc = .vertices) ∧ ∀ a ∈ acts3, a.answer = "elevation" → tags3[1]? ≠ some a.tag := by
  constructor <;> simp [acts3, Act.answer, Act.loc, Act.tag, tags3]

/-- C124. The slope of the elevation on land is lost by setting it at centroids of the lake. -/
theorem C124_flat : (start "elevation" 1).v 0 = 1 ∧
    (setTagRegion tags3 [.set "lake" "elevation" 7 .centroids] start "elevation" 1).v 0 = 2 ∧ tags3[1]? ≠ some "lake" := by decide +kernel

end Verif.TagRegion
