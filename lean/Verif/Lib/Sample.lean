import Verif.Lib.PropsMax
import Verif.Lib.PropsOrder

/-!
# Cases of rasters and of points
-/

namespace Verif.Lib

/-- Lines which are lists of numbers; a line with the single number -99 is no line of numbers. -/
def sampleText : Text (List ℚ) ℚ := ⟨fun l => l.isEmpty, fun l => if l = [-99] then none else some l⟩

def sampleHead : List (List ℚ) := [[1], [2], [3], [4], [5], [6]]

example : maxAsc sampleText [sampleHead ++ [[1, 7], [2, 2]], sampleHead ++ [[3, 5], []], sampleHead ++ [[-9999, 6], [1, 4]]] =
    some (sampleHead, [[3, 7], [2, 4]]) := by decide +kernel

example : Alike sampleText [sampleHead ++ [[1, 7], [2, 2]], sampleHead ++ [[3, 5], []]] := (C117_taken _ _).mp (by decide +kernel)

/-- Another number of columns, another header, a line which is empty in all files, no numbers. -/
example : ¬ Alike sampleText [sampleHead ++ [[1, 7]], sampleHead ++ [[1]]] := fun h => absurd ((C117_taken _ _).mpr h) (by decide +kernel)

example : ¬ Alike sampleText [sampleHead ++ [[1]], [9] :: sampleHead.tail ++ [[1]]] := fun h => absurd ((C117_taken _ _).mpr h) (by decide +kernel)

example : ¬ Alike sampleText [sampleHead ++ [[1], []], sampleHead ++ [[2], []]] := fun h => absurd ((C117_taken _ _).mpr h) (by decide +kernel)

example : ¬ Alike sampleText [sampleHead ++ [[-99]]] := fun h => absurd ((C117_taken _ _).mpr h) (by decide +kernel)

/-- Points on a line; the last number of a row is kept. -/
def samplePoints : List ((ℚ × ℚ) × ℕ) := [((0, 0), 10), ((5, 0), 11), ((1, 0), 12), ((0, 1), 13), ((2, 0), 14)]

example : orderBoundary Prod.fst 5 samplePoints = some [((0, 0), 10), ((1, 0), 12), ((2, 0), 14), ((0, 1), 13), ((5, 0), 11)] := by decide +kernel

example : orderBoundary Prod.fst 4 samplePoints = none := C118_refused _ _ _ (.inr (by decide))

example : ∃ o, orderBoundary Prod.fst 1000 samplePoints = some (((0, 0), 10) :: o) :=
  let ⟨o, h, _⟩ := C118_order Prod.fst 1000 ((0, 0), 10) samplePoints.tail (by decide)
  ⟨o, h⟩

end Verif.Lib
