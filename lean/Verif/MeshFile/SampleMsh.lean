import Verif.MeshFile.PropsMsh
import Verif.MeshFile.Sample

/-! # C107: a mesh which both kinds of file keep -/

namespace Verif.MeshFile

instance (s : Str) : Decidable (Bytes s) := inferInstanceAs (Decidable (∀ c ∈ s, _))
instance (i : ℤ) : Decidable (Int32 i) := inferInstanceAs (Decidable (_ ∧ _))

/-- The hypotheses of the theorems hold for the sample. -/
theorem sample_storable : Storable sample where
  rows := by rintro _ ⟨⟩; decide
  noRows := by decide
  triangleTags := ⟨_, rfl, by decide, by decide +kernel⟩
  neighbours := by decide
  neighbour := by
    intro n hn
    simp only [sample, List.mem_cons, List.not_mem_nil, or_false] at hn
    rcases hn with rfl | rfl
    · exact ⟨_, _, _, rfl, by decide, by decide, by decide⟩
    · exact ⟨_, _, _, rfl, by decide, by decide, by decide⟩
  segmentTags := by decide
  pointAttributes := by decide
  pointColumns := ⟨0, by decide⟩
  outlineTags := by decide
  regionTags := by decide
  regionAreas := by decide
  int3 := by decide +kernel
  int2 := by decide +kernel
  bytes := by decide +kernel

/-- It is read back as it was, in whichever form it is kept. -/
example : (∃ f, writeMsh sample = some f ∧ readMsh f = sample) ∧
    ∃ text f d', writeTsh ints sample = some text ∧ writeMsh sample = some f ∧ readTsh ints text = some d' ∧
      d' = { readMsh f with geo := d'.geo } ∧ SameOrigin (readMsh f).geo d'.geo :=
  ⟨C107_msh sample_storable (by decide +kernel), C107_formats_agree ints_faithful sample_complete sample_storable⟩

/-- **C107.** The NetCDF form keeps the hemisphere, which the text form forgets. -/
theorem C107_hemisphere : ((writeMsh sample).map fun f => (readMsh f).geo.map fun r => r.hemisphere) = some (some "southern".toList) := by
  decide +kernel

/-- **C107.** A tag with an end of line in it, which makes a text file unreadable, is kept by the NetCDF form. -/
theorem C107_two_lines : ((writeMsh broken).map fun f => (readMsh f).segmentTags) = some broken.segmentTags := by decide +kernel

/-- A mesh without tags for its triangles. -/
def untagged : Dict ℤ := { sample with triangleTags := none }

/-- **C107.** A mesh without tags for its triangles can be kept as a text but not in NetCDF form. -/
theorem C107_formats_differ : ((writeTsh ints untagged).bind (readTsh ints)).isSome ∧ writeMsh untagged = none :=
  ⟨by decide +kernel, C107_tags_needed (Or.inr (Or.inl ⟨by decide, Or.inl rfl⟩))⟩

/-- A neighbour left out, and a tag with a letter of more than one byte. -/
example : writeMsh { sample with neighbours := [(none, some 1, none), (none, none, some 0)] } = none ∧
    writeMsh { sample with regionTags := ["Küste".toList, []] } = none :=
  ⟨C107_neighbours_needed ⟨_, List.mem_cons_self, Or.inl rfl⟩, C107_bytes_needed ⟨"Küste".toList, by decide, by decide⟩⟩

/-- A mesh whose tags have white space at their ends: they come back without it. -/
example : ((writeMsh { sample with regionTags := [" a b ".toList, "c".toList] }).map fun f => (readMsh f).regionTags)
    = some ["a b".toList, "c".toList] := by
  decide +kernel

end Verif.MeshFile
