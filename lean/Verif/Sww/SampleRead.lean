import Verif.Sww.PropsRead

/-! Cases for C88. -/

namespace Verif.Sww

/-- A file with one triangle and two stored times. -/
def one : Sheet ℚ where
  xll := 500
  yll := 900
  starttime := 0
  times := [0, 10]
  volumes := [![0, 1, 2]]
  x := [0, 1, 0]
  y := [0, 0, 1]
  elevation := [-1, -2, -3]
  dyn q := if q = 0 then [[1, 2, 3], [4, 5, 6]] else [[0, 0, 0], [7, 8, 9]]

/-- A second one elsewhere, of two triangles. -/
def two : Sheet ℚ where
  xll := 0
  yll := 0
  starttime := 0
  times := [0, 10]
  volumes := [![0, 1, 2], ![1, 3, 2]]
  x := [5, 6, 5, 6]
  y := [0, 0, 1, 1]
  elevation := [-4, -5, -6, -7]
  dyn q := if q = 0 then [[11, 12, 13, 14], [14, 15, 16, 17]] else [[0, 0, 0, 0], [17, 18, 19, 20]]

/-- The first one again with a start time. -/
def late : Sheet ℚ := { one with starttime := 3600 }

theorem one_fits : one.Fits where
  y := by decide
  elevation := by decide
  slices := by decide
  rows := by decide
  volumes := by decide

theorem two_fits : two.Fits where
  y := by decide
  elevation := by decide
  slices := by decide
  rows := by decide
  volumes := by decide

theorem late_fits : late.Fits where
  y := by decide
  elevation := by decide
  slices := by decide
  rows := by decide
  volumes := by decide

/-- The files meet the hypotheses of `C88_concatenated`, `C88_accepted` and `C88_times`. -/
example : (∀ s ∈ [one, two], s.Fits) ∧ (mergeSheets [one, two]).isSome := by
  refine ⟨?_, by decide +kernel⟩
  intro s hs
  simp only [List.mem_cons, List.not_mem_nil, or_false] at hs
  rcases hs with rfl | rfl
  · exact one_fits
  · exact two_fits

example : (mergeSheets [one, two]).map (fun r => (r.x, r.volumes, r.dyn 1)) =
    some ([0, 1, 0, 5, 6, 5, 6], [![0, 1, 2], ![3, 4, 5], ![4, 6, 5]], [[0, 0, 0, 0, 0, 0, 0], [7, 8, 9, 17, 18, 19, 20]]) := by decide +kernel

/-- A run that began at 3600 is shown by the merged file as having begun at 0. -/
theorem C88_start_lost : ∃ r, mergeSheets [late, two] = some r ∧ r.times.map (r.starttime + ·) = [0, 10] ∧
    late.times.map (late.starttime + ·) = [3600, 3610] := by
  obtain ⟨r, hr⟩ := (C88_accepted (first := late) (rest := [two]) (by
    intro s hs
    simp only [List.mem_cons, List.not_mem_nil, or_false] at hs
    rcases hs with rfl | rfl
    · exact late_fits
    · exact two_fits)).2 (by decide)
  refine ⟨r, hr, ?_, by decide +kernel⟩
  exact (C88_times (by
    intro s hs
    simp only [List.mem_cons, List.not_mem_nil, or_false] at hs
    rcases hs with rfl | rfl
    · exact late_fits
    · exact two_fits) hr).1

/-- The second file is placed by the origin of the first: a corner that was at x = 5 is now shown at x = 505. -/
theorem C88_origin_mixed : ∃ r, mergeSheets [one, two] = some r ∧ r.x[3]?.map (r.xll + ·) = some 505 ∧ two.x[0]?.map (two.xll + ·) = some 5 := by
  have h : (mergeSheets [one, two]).map (fun r => r.x[3]?.map (r.xll + ·)) = some (some 505) := by decide +kernel
  rcases hr : mergeSheets [one, two] with _ | r
  · rw [hr] at h
    simp at h
  · rw [hr] at h
    simp only [Option.map_some, Option.some.injEq] at h
    exact ⟨r, rfl, h, by decide +kernel⟩

/-- Two triangles with separate corners along a common side. -/
def corners6 : List (ℚ × ℚ) := [(0, 0), (1, 0), (0, 1), (1, 0), (1, 1), (0, 1)]

example : weed corners6 [![0, 1, 2], ![3, 4, 5]] = some ([(0, 0), (1, 0), (0, 1), (1, 1)], [![0, 1, 2], ![1, 3, 2]]) := by decide +kernel

/-- A file stored with separate corners gives a mesh of four nodes and six values. -/
theorem C88_values_mismatch : ∃ p v w, readMesh false corners6 [![0, 1, 2], ![3, 4, 5]] [1, 2, 3, 4, 5, (6 : ℚ)] = some (p, v, w) ∧
    p.length = 4 ∧ w.length = 6 :=
  ⟨[(0, 0), (1, 0), (0, 1), (1, 1)], [![0, 1, 2], ![1, 3, 2]], [1, 2, 3, 4, 5, 6], by decide +kernel, rfl, rfl⟩

/-- The hypotheses of `C88_time_value` and `C88_time_exact`. -/
example : ([0, 10, 30] : List ℚ).head? = some 0 ∧ ([0, 10, 30] : List ℚ).getLast? = some 30 ∧ ([0, 10, 30] : List ℚ).Pairwise (· < ·) := by
  decide +kernel

example : timeInterp ([0, 10, 30] : List ℚ) 15 = some (1, 1 / 4) ∧ timeInterp ([0, 10, 30] : List ℚ) 30 = some (2, 0) ∧
    timeInterp ([0, 10, 30] : List ℚ) 31 = none ∧ interpolated [[0, 0], [4, 8], [8, (0 : ℚ)]] (1, 1 / 4) = some [5, 6] := by decide +kernel

end Verif.Sww
