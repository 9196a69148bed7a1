import Verif.Gauge.PropsThree
import Verif.FileFn.Sample

/-! # Samples for C98 -/

namespace Verif.Gauge

open Verif.Polygon (Pt)
open Verif.FileFn

/-- Two results of a flow over a unit square, from absolute time `start` on. -/
def gFile (start : ℚ) : File ℚ :=
  ⟨.sww, start, some [0, 10], ⟨1000, 2000⟩, some [⟨0, 0⟩, ⟨1, 0⟩, ⟨1, 1⟩, ⟨0, 1⟩], [(0, 1, 3), (1, 2, 3)], fun s =>
    if s = "stage" then some (.two [[0, 0, 0, 0], [10, 20, 30, 20]])
    else if s = "elevation" then some (.one [-1, -2, -3, -2])
    else if s = "xmomentum" then some (.two [[0, 0, 0, 0], [4, 4, 4, 4]])
    else if s = "ymomentum" then some (.two [[0, 0, 0, 0], [0, 0, 0, 0]])
    else none⟩

/-- Columns asked for; none of them needs a square root. -/
def gCols (names : List String) : Cols ℚ := ⟨names, id, fun _ _ => .inf⟩

/-- The csv file of a gauge, if all went well. -/
def csvOf (r : Except Err (Out ℚ)) (name : String) : Option (List (List (Cell ℚ))) :=
  match r with
  | .error _ => none
  | .ok o => o.csv name

/-- A gauge in the first triangle and one off the mesh. -/
def gPts : List (String × Pt ℚ) := [("far", ⟨1500, 2000⟩), ("near", ⟨1000 + 1 / 4, 2000 + 1 / 4⟩)]

example : csvOf (sww2csv id qMk (gCols ["Stage", "depth"]) false gPts "run" [("run.sww", gFile 3600), ("log.txt", gFile 0)] fun _ => none) "near" =
    some [[.num 3600, .num 1, .num 0, .num (3 / 2)], [.num 3610, .num (361 / 360), .num 15, .num (33 / 2)]] := by decide +kernel

example : csvOf (sww2csv id qMk (gCols ["stage"]) false gPts "run" [("run.sww", gFile 0)] fun _ => none) "far" = none := by decide +kernel

/-- **C98.** The files of another run whose name contains the base name are mixed in: the file for the run `run` holds the rows of `run2` too. -/
theorem C98_other_run :
    csvOf (sww2csv id qMk (gCols ["stage"]) false gPts "run" [("run2.sww", gFile 0), ("run.sww", gFile 0)] fun _ => none) "near" =
      some [[.num 0, .num 0, .num 0], [.num 10, .num (1 / 360), .num 15], [.num 0, .num 0, .num 0], [.num 10, .num (1 / 360), .num 15]] := by
  decide +kernel

/-- **C98.** Times of a second file that starts later are counted from the start of the first. -/
theorem C98_second_start :
    csvOf (sww2csv id qMk (gCols ["stage"]) false gPts "run" [("run1.sww", gFile 0), ("run2.sww", gFile 3600)] fun _ => none) "near" =
      some [[.num 0, .num 0, .num 0], [.num 10, .num (1 / 360), .num 15], [.num 0, .num 0, .num 0], [.num 10, .num (1 / 360), .num 15]] := by
  decide +kernel

/-- **C98.** Of two gauges with the same name only the second one is kept. -/
theorem C98_same_name :
    csvOf (sww2csv id qMk (gCols ["stage"]) false [("a", ⟨1000, 2000⟩), ("a", ⟨1001, 2000⟩)] "run" [("run.sww", gFile 0)] fun _ => none) "a" =
      some [[.num 0, .num 0, .num 0], [.num 10, .num (1 / 360), .num 20]] := by decide +kernel

/-- **C98.** An unknown quantity gives no column, so later columns do not match the heading. -/
theorem C98_unknown :
    csvOf (sww2csv id qMk (gCols ["froude", "stage"]) false gPts "run" [("run.sww", gFile 0)] fun _ => none) "near" =
      some [[.num 0, .num 0, .num 0], [.num 10, .num (1 / 360), .num 15]] := by decide +kernel

/-- **C98.** Centroids: with a gauge off the mesh before it, a gauge has no centroid (an exception); alone it has one, relative to the corner of
the file. -/
theorem C98_centroids :
    (match sww2csv id qMk (gCols ["xcentroid"]) true gPts "run" [("run.sww", gFile 0)] fun _ => none with
      | .error e => e = .crash
      | .ok _ => False) ∧
    csvOf (sww2csv id qMk (gCols ["xcentroid"]) true gPts.tail "run" [("run.sww", gFile 0)] fun _ => none) "near" =
      some [[.num 0, .num 0, .num (1 / 3)], [.num 10, .num (1 / 360), .num (1 / 3)]] := by
  constructor
  · have : ∃ e, sww2csv id qMk (gCols ["xcentroid"]) true gPts "run" [("run.sww", gFile 0)] (fun _ => none) = .error e ∧ e = .crash := by
      refine ⟨.crash, ?_, rfl⟩
      have h : (match sww2csv id qMk (gCols ["xcentroid"]) true gPts "run" [("run.sww", gFile 0)] (fun _ => none) with
        | .error e => some e
        | .ok _ => none) = some Err.crash := by decide +kernel
      cases hr : sww2csv id qMk (gCols ["xcentroid"]) true gPts "run" [("run.sww", gFile 0)] (fun _ => none) with
      | error e => rw [hr] at h; simp at h; rw [h]
      | ok o => rw [hr] at h; simp at h
    obtain ⟨e, h1, h2⟩ := this
    rw [h1]
    exact h2
  · decide +kernel

/-- The gauges of a file with the columns in another order. -/
example : readGauges (fun s => if s = "100.3" then some (1003 / 10 : ℚ) else if s = "50.2" then some (502 / 10) else none)
    [["northing", " easting", "name", "elevation"], ["50.2", "100.3", "point1", "10.0"]] = some [("point1", ⟨1003 / 10, 502 / 10⟩)] := by decide +kernel

/-- The tables of depth and velocity. -/
example : (match interpolateCsv id qMk (gFile 100) [⟨1500, 2000⟩, ⟨1000 + 1 / 4, 2000 + 1 / 4⟩] 1 false false with
    | .error _ => none
    | .ok r => r[1]?) = some ([.num 10, .nan, .num (33 / 2)], [.num 10, .inf, .num (8 / 33)], [.num 10, .inf, .num 0]) := by decide +kernel

/-- Headings with blanks around them, in another order, which the theorem on reading gauges speaks of. -/
example : Headed ["name", " northing ", "easting\t"] 2 "easting" ∧ Headed ["name", " northing ", "easting\t"] 1 "northing" ∧
    Headed ["name", " northing ", "easting\t"] 0 "name" :=
  ⟨⟨"easting\t", [], ['\t'], rfl, by decide, by decide, by decide⟩, ⟨" northing ", [' '], [' '], rfl, by decide, by decide, by decide⟩,
    ⟨"name", [], [], rfl, by decide, by decide, by decide⟩⟩

end Verif.Gauge
