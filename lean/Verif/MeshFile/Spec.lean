import Verif.MeshFile.Model

/-!
# What mesh files are to keep

The words used in the statements: which characters are white space, what it is to trim a text, to fit on one line, and to
write numbers so that they can be read again.
-/

namespace Verif.MeshFile

/-- White space. -/
def White (c : Char) : Prop := (9 ≤ c.toNat ∧ c.toNat ≤ 13) ∨ (28 ≤ c.toNat ∧ c.toNat ≤ 32) ∨ c.toNat = 133 ∨ c.toNat = 160

/-- `t` is `s` without the white space at its ends. -/
def Trim (s t : Str) : Prop :=
  ∃ a b, s = a ++ t ++ b ∧ (∀ c ∈ a, White c) ∧ (∀ c ∈ b, White c) ∧ (∀ c u, t = c :: u → ¬ White c) ∧
    ∀ c u, t = u ++ [c] → ¬ White c

/-- The text has no end of line in it. -/
def OneLine (s : Str) : Prop := '\n' ∉ s ∧ '\r' ∉ s

/-- The text is neither empty nor does it hold white space. -/
def Word (s : Str) : Prop := s ≠ [] ∧ ∀ c ∈ s, ¬ White c

/-- Numbers are written as one word from which the same number is read; `None` is no number. -/
structure Faithful {K : Type} (c : Codec K) : Prop where
  back : ∀ x, c.read (c.show' x) = some x
  word : ∀ x, Word (c.show' x)
  none : c.read "None".toList = none

/-- How many titles of columns are expected. -/
def columns {K : Type} (d : Dict K) : ℕ :=
  match d.vertices, d.vertexAttributes with
  | _ :: _, some (row :: _) => row.length
  | _, _ => 0

/-- A dictionary for which the lists belonging together have sufficient length and titles and tags fit on a line. -/
structure Writable {K : Type} (d : Dict K) : Prop where
  rows : ∀ rows, d.vertexAttributes = some rows → rows ≠ [] → d.vertices.length ≤ rows.length
  titles : d.vertexTitles.length = columns d
  triangleTags : ∀ tags, d.triangleTags = some tags → tags ≠ [] → d.triangles.length ≤ tags.length
  neighbours : d.neighbours ≠ [] → d.triangles.length ≤ d.neighbours.length
  segmentTags : d.segments.length ≤ d.segmentTags.length
  pointAttributes : d.points.length ≤ d.pointAttributes.length
  outlineTags : d.outline.length ≤ d.outlineTags.length
  regionTags : d.regions.length ≤ d.regionTags.length
  regionAreas : d.regions.length ≤ d.regionAreas.length
  lineTitles : ∀ s ∈ d.vertexTitles, OneLine s
  lineTriangles : ∀ tags, d.triangleTags = some tags → ∀ s ∈ tags, OneLine s
  lineSegments : ∀ s ∈ d.segmentTags, OneLine s
  lineOutline : ∀ s ∈ d.outlineTags, OneLine s
  lineRegions : ∀ s ∈ d.regionTags, OneLine s

/-- A dictionary in which everything is there: every list has an entry for each thing it describes, every vertex has
the same number (at least one) of attributes or there are none, titles and tags have no white space at their ends. -/
structure Complete {K : Type} (d : Dict K) : Prop extends Writable d where
  allRows : ∀ rows, d.vertexAttributes = some rows → rows ≠ [] ∧ rows.length = d.vertices.length ∧ ∀ r ∈ rows, r ≠ []
  allTriangleTags : ∃ tags, d.triangleTags = some tags ∧ tags.length = d.triangles.length ∧ ∀ s ∈ tags, Trim s s
  allNeighbours : d.neighbours.length = d.triangles.length ∧
    ∀ n ∈ d.neighbours, n.1.isSome ∧ n.2.1.isSome ∧ n.2.2.isSome
  allSegmentTags : d.segmentTags.length = d.segments.length ∧ ∀ s ∈ d.segmentTags, Trim s s
  allPointAttributes : d.pointAttributes.length = d.points.length
  allOutlineTags : d.outlineTags.length = d.outline.length ∧ ∀ s ∈ d.outlineTags, Trim s s
  allRegionTags : d.regionTags.length = d.regions.length ∧ ∀ s ∈ d.regionTags, Trim s s
  allRegionAreas : d.regionAreas.length = d.regions.length
  allTitles : ∀ s ∈ d.vertexTitles, Trim s s

end Verif.MeshFile
