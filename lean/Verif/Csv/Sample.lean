import Verif.Csv.PropsPoly

/-! # Samples -/

namespace Verif.Csv

/-- A table with blanks around titles and more entries than titles in a row. -/
def smRows : List (List String) := [["LONG", " LAT "], ["115", "-20", "x"], ["116", "-21"]]

/-- Taking away a blank at either side. -/
def smStrip (s : String) : String := if s = " LAT " then "LAT" else s

def smTable : Table String := ⟨[("LONG", ["115", "116"]), ("LAT", ["-20", "-21"])], [("LONG", 0), ("LAT", 1)]⟩

theorem smTable_ok : load smStrip ["LAT"] smRows = .ok smTable := by decide +kernel

theorem smTable_shows : Shows smTable ["LONG", "LAT"] [["115", "116"], ["-20", "-21"]] 2 :=
  ⟨by decide, by decide, by decide, by decide, by decide, by decide⟩

example := C113_load smTable_ok (by decide) (by decide) (by decide)
example := C113_column smTable_shows "LAT" ["-20", "-21"]
example := C113_add smTable_shows "DEPTH" ["1", "2"] false rfl (by decide)
example := C113_overwrite smTable_shows ["1", "2"] rfl 1 (by decide)
example := C113_wrong_number smTable_shows "DEPTH" ["1"] false (by decide)
example := C113_save smTable_shows
example := C113_again smTable_shows (by decide) smStrip (by decide)

example : save smTable = .ok [[some "LONG", some "LAT"], [some "115", some "-20"], [some "116", some "-21"]] := by decide +kernel

/-- **C113.** Two columns of one title become one column with twice as many entries as there are rows; the table cannot be saved. After a column
has been added it can, but the title of the other one is lost. -/
theorem C113_title_twice :
    ∃ t : Table String, load id [] [["A", "A"], ["1", "2"], ["3", "4"]] = .ok t ∧ column t "A" = .ok ["1", "2", "3", "4"] ∧ save t = .error .python ∧
      ∃ t', setColumn t "B" ["5", "6", "7", "8"] false = .ok t' ∧
        save t' = .ok [[none, some "B"], [none, some "5"], [none, some "6"], [none, some "7"], [none, some "8"]] :=
  ⟨⟨[("A", ["1", "2", "3", "4"])], [("A", 1)]⟩, by decide +kernel, by decide +kernel, by decide +kernel,
    ⟨[("A", ["1", "2", "3", "4"]), ("B", ["5", "6", "7", "8"])], [("A", 1), ("B", 1)]⟩, by decide +kernel, by decide +kernel⟩

/-- **C113.** A file without rows is read but has no columns: none can be asked for, set or saved. -/
theorem C113_no_rows {C : Type} [DecidableEq C] (strip : C → C) (check head : List C) {t : Table C} (h : load strip check [head] = .ok t) :
    (∀ name, column t name = .error .title) ∧ (∀ name vals o, ∃ e, setColumn t name vals o = .error e) ∧ ∃ e, save t = .error e := by
  have ht : t.columns = [] := by
    rw [load] at h
    split at h
    · rw [addRows] at h; cases h; rfl
    · cases h
  have hr : rowCount t = .error .python := by
    rw [rowCount, ht]
    split
    · rfl
    · rfl
  refine ⟨fun name => by rw [column, ht]; rfl, fun name vals o => ⟨.python, by rw [setColumn, hr]⟩, ?_⟩
  rw [save, hr]
  split <;> exact ⟨_, rfl⟩

example : load id ["A"] [["A", "B"]] = .ok ⟨[], [("A", 0), ("B", 1)]⟩ := by decide +kernel

/-- **C113.** A name with blanks is used as it is by a table (the code says that they are removed); reading the saved file gives another title. -/
theorem C113_blanks :
    ∃ t : Table String, setColumn smTable " LAT " ["1", "2"] false = .ok t ∧ column t " LAT " = .ok ["1", "2"] ∧
      load smStrip [] [["LONG", "LAT", " LAT "], ["115", "-20", "1"], ["116", "-21", "2"]] =
        .ok ⟨[("LONG", ["115", "116"]), ("LAT", ["-20", "1", "-21", "2"])], [("LONG", 0), ("LAT", 2)]⟩ ∧
      save t = .ok [[some "LONG", some "LAT", some " LAT "], [some "115", some "-20", some "1"], [some "116", some "-21", some "2"]] :=
  ⟨⟨[("LONG", ["115", "116"]), ("LAT", ["-20", "-21"]), (" LAT ", ["1", "2"])], [("LONG", 0), ("LAT", 1), (" LAT ", 2)]⟩,
    by decide +kernel, by decide +kernel, by decide +kernel, by decide +kernel⟩

/-! ## Polygons -/

def smNames : Names String := ⟨"easting", "northing", "id"⟩

def smHead : List String := ["easting", "northing", "id", "floors"]

def smLines : List (List String) := [["0", "0", "a", "2"], ["1", "0", "a", "2"], ["1", "1", "a", "2"], ["0", "1", "b", "3"]]

def smL : List (Row String) := [("a", "0", "0", "2"), ("a", "1", "0", "2"), ("a", "1", "1", "2"), ("b", "0", "1", "3")]

def smNum (s : String) : Option ℚ := if s = "0" then some 0 else if s = "1" then some 1 else if s = "2" then some 2 else if s = "3" then some 3 else none

theorem sm_layout : Layout id smNames "floors" smHead smLines smL :=
  ⟨by decide, by decide, by decide, by decide, 2, 0, 1, 3, by decide, by decide, by decide, by decide, by decide⟩

def smVals : List (String × String) := [("a", "2"), ("b", "3")]

theorem sm_polys : loadPolygons id smNum smNames (some "floors") none (smHead :: smLines) =
    .ok ([("a", [(0, 0), (1, 0), (1, 1)]), ("b", [(0, 1)])], smVals) := by
  have h : (match loadPolygons id smNum smNames (some "floors") none (smHead :: smLines) with | .ok r => some r | .error _ => none) =
      some ([("a", [(0, 0), (1, 0), (1, 1)]), ("b", [(0, 1)])], smVals) := by decide +kernel
  split at h
  · next r hr => rw [hr, Option.some.inj h]
  · cases h

example := C113_polygons sm_layout smNum sm_polys
example : Proper smNum smL := (C113_polygons_taken sm_layout smNum).mp ⟨_, sm_polys⟩
example := C113_clipping sm_layout smNum 0

theorem sm_heights : heights smNum 3 smVals = .ok [("a", 6), ("b", 9)] := by
  have h : (match heights smNum 3 smVals with | .ok r => some r | .error _ => none) = some [("a", 6), ("b", 9)] := by decide +kernel
  split at h
  · next r hr => rw [hr, Option.some.inj h]
  · cases h

example := C113_heights smNum 3 sm_heights "b"

/-- Rows of a polygon that are apart, and rows whose values differ: the right-hand side of `C113_polygons_taken` can fail. -/
example : ¬ Proper smNum [("a", "0", "0", "2"), ("b", "0", "1", "3"), ("a", "1", "0", "2")] := fun h =>
  absurd (h.1 0 1 2 _ _ _ (by decide) (by decide) rfl rfl rfl rfl) (by decide)

example : ¬ Proper smNum [("a", "0", "0", "2"), ("a", "1", "0", "3")] := fun h =>
  absurd (h.2.1 ("a", "0", "0", "2") (by simp) ("a", "1", "0", "3") (by simp) rfl) (by decide)

/-- **C113.** An empty list of polygons for clipping leaves out all polygons, but their values stay. -/
theorem C113_clip_empty : (match loadPolygons id smNum smNames (some "floors") (some 0) (smHead :: smLines) with | .ok r => some r | .error _ => none) =
    some ([], smVals) := by decide +kernel

/-- Three columns: `C113_no_values` applies. -/
example : (match load id [] [["easting", "northing", "id"], ["0", "1", "a"]] with | .ok t => t.columns.length | .error _ => 0) = 3 := by decide +kernel

end Verif.Csv
