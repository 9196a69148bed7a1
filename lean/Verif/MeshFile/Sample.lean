import Verif.MeshFile.PropsMesh

/-! # Samples for C106 -/

namespace Verif.MeshFile

/-- Whole numbers in decimal. -/
def ints : Codec ℤ := ⟨showInt, readInt⟩

/-- Whole numbers can be written and read in this way, so there are codecs as the theorems want them. -/
theorem ints_faithful : Faithful ints := ⟨readInt_show, word_int, by decide +kernel⟩

/-- Two triangles with attributes, tags (one with a blank inside), an outline with a hole and two regions. -/
def sample : Dict ℤ where
  vertices := [(0, 0), (10, 0), (10, 10), (0, 10)]
  vertexAttributes := some [[1, 5], [2, 6], [-3, 7], [4, 8]]
  vertexTitles := ["elevation".toList, "bed friction".toList]
  triangles := [(0, 1, 2), (0, 2, 3)]
  triangleTags := some ["dry land".toList, "".toList]
  neighbours := [(some (-1), some 1, some (-1)), (some (-1), some (-1), some 0)]
  segments := [(0, 1), (1, 2), (2, 3), (3, 0)]
  segmentTags := ["open sea".toList, "exterior".toList, "".toList, "wall".toList]
  points := [(0, 0), (10, 0), (10, 10), (0, 10)]
  pointAttributes := [[], [], [], []]
  outline := [(0, 1), (1, 2), (2, 3), (3, 0)]
  outlineTags := ["open sea".toList, "exterior".toList, "".toList, "wall".toList]
  holes := [(4, 3)]
  regions := [(5, 1), (5, 9)]
  regionTags := ["dry land".toList, "".toList]
  regionAreas := [some 25, none]
  geo := some ⟨56, 300000, 6000000, "southern".toList, 500000, 10000000, "wgs84".toList, "UTM".toList, "m".toList⟩

theorem trim_iff (s : Str) : Trim s s ↔ strip s = s := by
  refine ⟨strip_self, fun h => ?_⟩
  have := strip_trim s
  rwa [h] at this

instance (s : Str) : Decidable (Trim s s) := decidable_of_iff _ (trim_iff s).symm
instance (s : Str) : Decidable (OneLine s) := inferInstanceAs (Decidable (_ ∧ _))

/-- The hypotheses of the theorems hold for it. -/
theorem sample_complete : Complete sample where
  rows := by rintro _ ⟨⟩ _; decide
  titles := by decide
  triangleTags := by rintro _ ⟨⟩ _; decide
  neighbours := by decide
  segmentTags := by decide
  pointAttributes := by decide
  outlineTags := by decide
  regionTags := by decide
  regionAreas := by decide
  lineTitles := by decide
  lineTriangles := by rintro _ ⟨⟩; decide
  lineSegments := by decide
  lineOutline := by decide
  lineRegions := by decide
  allRows := by rintro _ ⟨⟩; decide
  allTriangleTags := ⟨_, rfl, by decide, by decide +kernel⟩
  allNeighbours := by decide
  allSegmentTags := by decide +kernel
  allPointAttributes := by decide
  allOutlineTags := by decide +kernel
  allRegionTags := by decide +kernel
  allRegionAreas := by decide
  allTitles := by decide +kernel

/-- What comes back of it: all but the hemisphere. -/
example : ((writeTsh ints sample).bind (readTsh ints)).map (fun d => d.segmentTags) = some sample.segmentTags ∧
    ((writeTsh ints sample).bind (readTsh ints)).map (fun d => d.vertexAttributes) = some sample.vertexAttributes ∧
    ((writeTsh ints sample).bind (readTsh ints)).map (fun d => d.regionAreas) = some sample.regionAreas ∧
    ((writeTsh ints sample).bind (readTsh ints)).map (fun d => d.geo.map fun r => r.hemisphere) = some (some "undefined".toList) := by
  decide +kernel

/-- **C106.** A geo reference of the southern hemisphere does not come back as such. -/
theorem C106_hemisphere : ∃ (d : Dict ℤ) (text : Str) (d' : Dict ℤ) (r r' : Ref ℤ), Complete d ∧ writeTsh ints d = some text ∧
    readTsh ints text = some d' ∧ d.geo = some r ∧ d'.geo = some r' ∧ r.hemisphere = "southern".toList ∧
    r'.hemisphere = "undefined".toList := by
  obtain ⟨text, d', h1, h2, -, -, h3⟩ := C106_tsh ints_faithful sample_complete
  obtain ⟨r', h4, -, -, -, h5, -⟩ := h3 _ rfl
  exact ⟨sample, text, d', _, r', sample_complete, h1, h2, rfl, h4, rfl, h5⟩

/-- A mesh of three vertices of which the second has no attribute. -/
def gappy : Dict ℤ :=
  { sample with vertices := [(0, 0), (10, 0), (10, 10)], vertexAttributes := some [[1], [], [3]], vertexTitles := ["elevation".toList],
                triangles := [(0, 1, 2)], triangleTags := none, neighbours := [], segments := [], segmentTags := [] }

/-- **C106.** Of attributes with a gap those behind it come back for another vertex. -/
theorem C106_attributes_move : ((writeTsh ints gappy).bind (readTsh ints)).map (fun d => d.vertexAttributes) = some (some [[1], [3]]) := by
  decide +kernel

/-- A tag with an end of line in it. -/
def broken : Dict ℤ :=
  { sample with segmentTags := ["open\nsea".toList, "exterior".toList, "".toList, "wall".toList] }

/-- **C106.** A tag with an end of line in it makes a file which cannot be read. -/
theorem C106_two_lines : (writeTsh ints broken).isSome ∧ ((writeTsh ints broken).bind (readTsh ints)).isNone := by decide +kernel

/-- The hypotheses of the theorem on titles without columns. -/
example : Writable { ({ sample with vertexAttributes := none } : Dict ℤ) with vertexTitles := [] } where
  rows := by rintro _ ⟨⟩
  titles := by decide
  triangleTags := by rintro _ ⟨⟩ _; decide
  neighbours := by decide
  segmentTags := by decide
  pointAttributes := by decide
  outlineTags := by decide
  regionTags := by decide
  regionAreas := by decide
  lineTitles := by decide
  lineTriangles := by rintro _ ⟨⟩; decide
  lineSegments := by decide
  lineOutline := by decide
  lineRegions := by decide

/-- A mesh with its outline. -/
def whole : Whole ℤ where
  user := ⟨[(0, 0), (10, 0), (10, 10)], [((0, 1), "open sea".toList), ((1, 2), "exterior".toList), ((2, 0), "".toList)], [(3, 1)],
    [((8, 2), "dry land".toList, some 25), ((9, 3), "".toList, none)]⟩
  tri := ⟨[(0, 0), (10, 0), (10, 10)], [], [], [(0, 1, 2)], ["dry land".toList], [(-1, -1, -1)], [(0, 1), (1, 2), (2, 0)],
    ["open sea".toList, "exterior".toList, "".toList]⟩
  geo := Ref.plain 56 300000 6000000

example : Sound whole where
  rows := by decide
  titles := by decide
  tags := by decide
  neighbours := by decide
  segs := by decide
  ends := by decide
  lines := by
    have h : ∀ s ∈ whole.tri.vertexTitles ++ (whole.tri.triangleTags ++ (whole.tri.segmentTags ++ (whole.user.segments.map (·.2) ++
        whole.user.regions.map (·.2.1)))), OneLine s ∧ Trim s s := by decide +kernel
    intro s hs
    exact h s (by simpa only [List.mem_append] using hs)

/-- Its outline comes back as it was. -/
example : (((writeTsh ints (toDict whole)).bind (readTsh ints)).bind toUser).map (fun u => u.segments) = some whole.user.segments ∧
    (((writeTsh ints (toDict whole)).bind (readTsh ints)).bind toUser).map (fun u => u.regions.map (·.2.2)) = some [some 25, none] := by
  decide +kernel

end Verif.MeshFile
