import Verif.Urs.Props
import Mathlib.Data.Rat.Floor
import Mathlib.Tactic.NormNum

/-!
# A triangle, points outside the grid, and a short side
-/

namespace Verif.Urs

/-- A degree is taken as 100 km. -/
def flat : Maps ℚ := ⟨fun lat long => (100000 * long, 100000 * lat), fun p => (p.2 / 100000, p.1 / 100000)⟩

/-- A grid of three by three points one degree apart. -/
def three : Grid ℚ := ⟨0, 0, 1, 3, 3⟩

def tri : List (ℚ × ℚ) := [(50000, 50000), (150000, 50000), (150000, 150000)]

example : Side tri (150000, 150000) (50000, 50000) := ⟨2, by decide +kernel, by decide +kernel, by decide +kernel⟩

/-- The corner (2, 1) of the cell around (1.5, 1.5), as in `C121_around`. -/
example : ∃ l, boundaryPoints flat three tri = some l ∧ ((2 : ℚ), (1 : ℚ)) ∈ l := by
  have h := C121_around flat three (by decide +kernel) tri (150000, 150000) (50000, 50000)
    ⟨2, by decide +kernel, by decide +kernel, by decide +kernel⟩ (.inr (by decide +kernel)) (3 / 2) (3 / 2)
    (.inr (by decide +kernel)) (.inr (by decide +kernel)) 2 1 (.inr (by decide +kernel)) (.inl (by decide +kernel)) (by unfold Near; decide +kernel)
  have e : (three.lat + ((2 : ℤ) : ℚ) * three.spacing, three.long + ((1 : ℤ) : ℚ) * three.spacing) = (2, 1) := by decide +kernel
  rwa [e] at h

example : 0 < three.spacing ∧ ∃ l, boundaryPoints flat three tri = some l :=
  ⟨by decide +kernel, Option.isSome_iff_exists.mp (by decide +kernel)⟩

/-- C121. The size of the grid has no part in the choice: points which the model does not have are asked for. -/
theorem C121_beyond : ∃ (g : Grid ℚ) (l : List (ℚ × ℚ)), boundaryPoints flat g tri = some l ∧
    ∃ (i : ℕ) (q : ℚ), (g.lat + i * g.spacing, q) ∈ l ∧ g.lats ≤ i := by
  refine ⟨⟨0, 0, 1, 2, 2⟩, (boundaryPoints flat ⟨0, 0, 1, 2, 2⟩ tri).getD [], by decide +kernel, 2, 1, by decide +kernel, by decide +kernel⟩

/-- A side of one millimetre, north of a corner of a fine grid. -/
def short : List (ℚ × ℚ) := [(1 / 2, 1 / 2), (1 / 2, 501 / 1000)]

/-- A grid with a spacing of a hundred-thousandth of a degree, here one metre. -/
def fine : Grid ℚ := ⟨0, 0, 1 / 100000, 9, 9⟩

/-- C121. If all sides are shorter than a metre, the points of the grid around them may be left out, although they are not far away: the distance
which is compared is divided by the length of the side once too often. -/
theorem C121_short : boundaryPoints flat fine short = none ∧ Side short (1 / 2, 1 / 2) (1 / 2, 501 / 1000) ∧
    Bounds fine.lat fine.spacing (flat.geo (1 / 2, 1 / 2)).1 0 ∧ Bounds fine.long fine.spacing (flat.geo (1 / 2, 1 / 2)).2 0 ∧
    Near (flat.utm 0 0) (1 / 2, 1 / 2) (1 / 2, 501 / 1000) (1571474112 / 10000 * fine.spacing) := by
  refine ⟨Option.isNone_iff_eq_none.mp (by decide +kernel), ⟨0, by decide +kernel, by decide +kernel, by decide +kernel⟩, .inl (by decide +kernel),
    .inl (by decide +kernel), by unfold Near; decide +kernel⟩

end Verif.Urs
