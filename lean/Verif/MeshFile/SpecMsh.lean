import Verif.MeshFile.ModelMsh
import Verif.MeshFile.Spec

/-! # What NetCDF mesh files can hold -/

namespace Verif.MeshFile

/-- A whole number of 32 bits. -/
def Int32 (i : ℤ) : Prop := -2 ^ 31 ≤ i ∧ i < 2 ^ 31

/-- A text all of whose characters have one byte. -/
def Bytes (s : Str) : Prop := ∀ c ∈ s, c.toNat < 128

/-- A dictionary which a NetCDF file can hold: every list has an entry for each thing it describes; attributes have a title
for each column and not all titles are empty; the attributes of points are equally many; whole numbers have 32 bits and
characters one byte. -/
structure Storable {K : Type} (d : Dict K) : Prop where
  rows : ∀ rows, d.vertexAttributes = some rows → rows ≠ [] ∧ rows.length = d.vertices.length ∧
    (∀ r ∈ rows, r.length = d.vertexTitles.length) ∧ ∃ t ∈ d.vertexTitles, t ≠ []
  noRows : d.vertexAttributes = none → d.vertexTitles = []
  triangleTags : ∃ tags, d.triangleTags = some tags ∧ tags.length = d.triangles.length ∧ ∀ s ∈ tags, Bytes s
  neighbours : d.neighbours.length = d.triangles.length
  neighbour : ∀ n ∈ d.neighbours, ∃ a b e, n = (some a, some b, some e) ∧ Int32 a ∧ Int32 b ∧ Int32 e
  segmentTags : d.segmentTags.length = d.segments.length
  pointAttributes : d.pointAttributes.length = d.points.length
  pointColumns : ∃ n, ∀ r ∈ d.pointAttributes, r.length = n
  outlineTags : d.outlineTags.length = d.outline.length
  regionTags : d.regionTags.length = d.regions.length
  regionAreas : d.regionAreas.length = d.regions.length
  int3 : ∀ t ∈ d.triangles, Int32 t.1 ∧ Int32 t.2.1 ∧ Int32 t.2.2
  int2 : ∀ t ∈ d.segments ++ d.outline, Int32 t.1 ∧ Int32 t.2
  bytes : ∀ s ∈ d.vertexTitles ++ d.segmentTags ++ d.outlineTags ++ d.regionTags, Bytes s

end Verif.MeshFile
