import Verif.Ungen.Props

/-!
# Cases of files of polygons
-/

namespace Verif.Ungen

/-- A triangle which is closed in the file, and a square which is not. -/
def sampleRings : List (Line ℚ × List (ℚ × ℚ)) :=
  [(.pt 1 5, [(0, 0), (1, 0), (0, 1), (0, 0)]), (.other, [(5, 5), (6, 5), (6, 6), (5, 6)])]

example : read (file sampleRings []) = some ⟨[(0, 0), (1, 0), (0, 1), (5, 5), (6, 5), (6, 6), (5, 6)],
    [(0, 1), (1, 2), (2, 0), (3, 4), (4, 5), (5, 6), (6, 3)], [[(0, 0), (1, 0), (0, 1)], [(5, 5), (6, 5), (6, 6), (5, 6)]]⟩ := by decide +kernel

/-- The hypotheses of `C119_read` are met. -/
example : (read (file sampleRings [.other])).isSome = true := by
  unfold sampleRings
  rw [C119_read _ _ _ (by decide) (by decide)]
  rfl

/-- Without `END` behind all. -/
example : read ([.pt 1 5, .pt 0 0, .pt 1 0, .fin] : List (Line ℚ)) = none := by decide +kernel

end Verif.Ungen
