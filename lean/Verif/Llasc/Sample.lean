import Verif.Llasc.Props

/-!
# Small rasters, one of them with fewer columns than its header says
-/

namespace Verif.Llasc

/-- One zone; a degree is taken as 100 km. -/
def flat (lat long : ℚ) : ℤ × ℚ × ℚ := (55, 100000 * long, 100000 * lat)

/-- Two rows and three columns; one value is missing. -/
def good : Raster ℚ := ⟨3, 2, .corner, 150, .corner, -20, 1, -9999, [[1, -9999, 3], [4, 5, 6]]⟩

theorem good_ok : good.Ok := ⟨by decide, by decide, by decide, by decide, by decide +kernel⟩

example : ∃ o, convert flat good = some o :=
  (C123_taken flat good good_ok).mpr ⟨⟨0, 2, 3, ⟨[1, -9999, 3], rfl, rfl⟩, by decide +kernel⟩, fun _ _ _ _ => rfl⟩

example : good.lat 0 = -19 ∧ good.long 2 = 152 := by decide +kernel

/-- Two values in each row, where the header says three. -/
def narrow : Raster ℚ := ⟨3, 2, .corner, 150, .corner, -20, 1, -9999, [[1, 2], [4, 5]]⟩

/-- C123. If the rows are shorter than the header says, there is no exception, and values are put into other rows: 4, first in the second row, is
written for the end of the first one. -/
theorem C123_narrow : narrow.Has 1 0 4 ∧ ∃ o, convert flat narrow = some o ∧ o.At (100000 * narrow.long 2) (100000 * narrow.lat 0) 4 ∧
    ¬ o.At (100000 * narrow.long 0) (100000 * narrow.lat 1) 4 := by
  refine ⟨⟨⟨[4, 5], rfl, rfl⟩, by decide +kernel⟩, ⟨55, (15000000, -2000000), [(0, 100000), (100000, 100000), (200000, 100000), (0, 0)], [1, 2, 4, 5]⟩, ?_, ?_, ?_⟩
  · have e : (convert flat narrow).map (fun o => (o.zone, o.corner, o.points, o.elevation)) =
        some (55, (15000000, -2000000), [(0, 100000), (100000, 100000), (200000, 100000), (0, 0)], [1, 2, 4, 5]) := by decide +kernel
    obtain ⟨o, ho, e'⟩ := Option.map_eq_some_iff.mp e
    rw [ho]
    cases o
    simp only [Prod.mk.injEq] at e'
    obtain ⟨rfl, rfl, rfl, rfl⟩ := e'
    rfl
  · exact ⟨(200000, 100000), by decide +kernel, by decide +kernel, by decide +kernel⟩
  · rintro ⟨p, hp, hx, hy⟩
    simp only [List.zip_cons_cons, List.zip_nil_left, List.mem_cons, Prod.mk.injEq, List.not_mem_nil, or_false] at hp
    rcases hp with ⟨rfl, h⟩ | ⟨rfl, h⟩ | ⟨rfl, -⟩ | ⟨rfl, h⟩
    · exact absurd h (by decide +kernel)
    · exact absurd h (by decide +kernel)
    · exact absurd hx (by decide +kernel)
    · exact absurd h (by decide +kernel)

/-- The raster `good` with the centre of its lowest left cell in place of the corner. -/
def centred : Raster ℚ := { good with xkey := .center, xll := 150 + 1 / 2, ykey := .center, yll := -20 + 1 / 2 }

/-- C123. The same raster given by its corner or by the centre of the first cell gives different points: half a cell is not taken into account. -/
theorem C123_centre : (convert flat good).map (fun o => o.corner) ≠ (convert flat centred).map (fun o => o.corner) ∧
    (convert flat good).map (fun o => o.points) = (convert flat centred).map (fun o => o.points) := by
  constructor <;> decide +kernel

end Verif.Llasc
