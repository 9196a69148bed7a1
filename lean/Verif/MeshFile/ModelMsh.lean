import Verif.MeshFile.Model

/-!
# Mesh files in NetCDF form

* `/repo/anuga/load_mesh/loadASCII.py` 573-776 (`_write_msh_file`), 779-899 (`_read_msh_file`)
* `/repo/anuga/utilities/system_tools.py` 265-280 (`string_to_char`)
* `/repo/anuga/coordinate_transforms/geo_reference.py` 169-205 (`write_NetCDF`, `read_NetCDF`)

A file holds for each variable a table or nothing. `none` as a result of writing stands for an exception.

Simplified: assigning a table with another number of rows than the variable has is an exception throughout (NumPy spreads a
single row over all); titles which are all empty are an exception (a dimension of length 0 is without limit in NetCDF); the
table of attributes has one row for each vertex (the code reshapes any table with a suitable number of entries); a greatest
area `None` is stored and read as not-a-number, here again `none`; masked values do not occur.
-/

namespace Verif.MeshFile

/-- `s.ljust(n)`. -/
def ljust (n : ℕ) (s : Str) : Str := s ++ List.replicate (n - s.length) ' '

/-- `maxlen`, `system_tools.py` 275. -/
def maxLen (l : List Str) : ℕ := l.foldr (fun s m => max s.length m) 0

/-- `string_to_char`, 265-280. -/
def charRows (tags : List Str) : List Str :=
  let l := if tags = [[]] then [[' ']] else tags
  l.map (ljust (maxLen l))

/-- Characters which can be stored in one byte (`'S1'`). -/
def ascii (tags : List Str) : Bool := tags.all fun s => s.all fun c => decide (c.toNat < 128)

/-- A table of characters for `n > 0` things: `shape[1]` of an empty table is an exception, a table of width 0 is not stored,
689-697, 707-714, 739-747, 764-770. -/
def tagVar (n : ℕ) (tags : List Str) : Option (Option (List Str)) :=
  if ascii tags then
    if n = 0 then some none
    else match charRows tags with
      | [] => none
      | r :: rs => if r.length = 0 then some none else if (r :: rs).length = n then some (some (r :: rs)) else none
  else none

/-- The whole numbers which a variable can hold (`int32`). -/
def fits (i : ℤ) : Bool := decide (-2147483648 ≤ i ∧ i ≤ 2147483647)

/-- All rows have the same length, else `num.array` raises an exception. -/
def uniform {K : Type} (rows : List (List K)) : Bool := rows.all fun r => decide (r.length = (rows.headD []).length)

/-- The contents of a file. -/
structure Nc (K : Type) where
  vertices : Option (List (K × K))
  vertexAttributes : Option (List (List K))
  vertexTitles : Option (List Str)
  segments : Option (List (ℤ × ℤ))
  segmentTags : Option (List Str)
  triangles : Option (List (ℤ × ℤ × ℤ))
  neighbours : Option (List (ℤ × ℤ × ℤ))
  triangleTags : Option (List Str)
  points : Option (List (K × K))
  pointAttributes : Option (List (List K))
  outline : Option (List (ℤ × ℤ))
  outlineTags : Option (List Str)
  holes : Option (List (K × K))
  regions : Option (List (K × K))
  regionAreas : Option (List (Option K))
  regionTags : Option (List Str)
  geo : Option (Ref K)

variable {K : Type}

/-- A variable which is only there if it has entries. -/
def stored {α : Type} (l : List α) : Option (List α) := if l.isEmpty then none else some l

/-- Attributes and titles, 593-606 and 662-682. -/
def attributeVars (nVert : ℕ) (atts : Option (List (List K))) (titles : List Str) :
    Option (Option (List (List K)) × Option (List Str)) :=
  match atts with
  | none => if titles.isEmpty then some (none, none) else none
  | some rows =>
    if !uniform rows || !ascii titles then none
    else if !titles.isEmpty && (nVert == 0 || (!rows.isEmpty && decide (rows.length ≠ nVert))) then none
    else if nVert = 0 ∨ rows = [] ∨ (rows.headD []).length = 0 then some (none, none)
    else if titles.isEmpty || decide (titles.length ≠ (rows.headD []).length) || decide (maxLen (charRows titles) = 0) then none
    else some (some rows, some (charRows titles))

/-- `num.array(neighbours, int32)`: an absent neighbour is an exception. -/
def neighbourInts (l : List (Option ℤ × Option ℤ × Option ℤ)) : Option (List (ℤ × ℤ × ℤ)) :=
  l.mapM fun n => match n with
    | (some a, some b, some e) => if fits a && fits b && fits e then some (a, b, e) else none
    | _ => none

/-- All entries of pairs fit. -/
def fits2 (l : List (ℤ × ℤ)) : Bool := l.all fun s => fits s.1 && fits s.2

/-- All entries of triples fit. -/
def fits3 (l : List (ℤ × ℤ × ℤ)) : Bool := l.all fun s => fits s.1 && fits s.2.1 && fits s.2.2

/-- Attributes of points, 723-729. -/
def pointVar (n : ℕ) (rows : List (List K)) : Option (Option (List (List K))) :=
  if !uniform rows then none
  else if n = 0 ∨ rows = [] ∨ (rows.headD []).length = 0 then some none
  else if rows.length = n then some (some rows) else none

/-- `_write_msh_file`, 573-776. -/
def writeMsh (d : Dict K) : Option (Nc K) := do
  let (va, vt) ← attributeVars d.vertices.length d.vertexAttributes d.vertexTitles
  let nb ← neighbourInts d.neighbours
  let st ← tagVar d.segments.length d.segmentTags
  let tt ← tagVar d.triangles.length (d.triangleTags.getD [])
  let ot ← tagVar d.outline.length d.outlineTags
  let rt ← tagVar d.regions.length d.regionTags
  let pa ← pointVar d.points.length d.pointAttributes
  if !fits2 d.segments || !fits3 d.triangles || !fits2 d.outline then none
  else if d.triangles.length ≠ 0 ∧ nb.length ≠ d.triangles.length then none
  else if d.regions.length ≠ 0 ∧ d.regionAreas.length ≠ d.regions.length then none
  else some {
    vertices := stored d.vertices
    vertexAttributes := va
    vertexTitles := vt
    segments := stored d.segments
    segmentTags := st
    triangles := stored d.triangles
    neighbours := if d.triangles.isEmpty then none else some nb
    triangleTags := tt
    points := stored d.points
    pointAttributes := pa
    outline := stored d.outline
    outlineTags := ot
    holes := stored d.holes
    regions := stored d.regions
    regionAreas := if d.regions.isEmpty then none else some d.regionAreas
    regionTags := rt
    geo := d.geo }

/-- Tags as they are read, `x.tobytes().decode().strip()`, or empty ones, 814-820, 830-836, 857-864, 876-883. -/
def readTags (n : ℕ) : Option (List Str) → List Str
  | some rows => rows.map strip
  | none => List.replicate n []

/-- `_read_msh_file`, 779-899. -/
def readMsh (f : Nc K) : Dict K where
  vertices := f.vertices.getD []
  vertexAttributes := f.vertexAttributes
  vertexTitles := readTags 0 f.vertexTitles
  triangles := if f.neighbours.isSome then f.triangles.getD [] else []
  triangleTags := some (readTags (if f.neighbours.isSome then f.triangles.getD [] else []).length f.triangleTags)
  neighbours := if f.triangles.isSome then (f.neighbours.getD []).map fun n => (some n.1, some n.2.1, some n.2.2) else []
  segments := f.segments.getD []
  segmentTags := readTags (f.segments.getD []).length f.segmentTags
  points := f.points.getD []
  pointAttributes := f.pointAttributes.getD (List.replicate (f.points.getD []).length [])
  outline := f.outline.getD []
  outlineTags := readTags (f.outline.getD []).length f.outlineTags
  holes := f.holes.getD []
  regions := f.regions.getD []
  regionTags := readTags (f.regions.getD []).length f.regionTags
  regionAreas := f.regionAreas.getD []
  geo := f.geo

end Verif.MeshFile
