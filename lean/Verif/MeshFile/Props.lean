import Verif.MeshFile.LemmasFile

/-! # C106: what is kept by a mesh file in text form -/

set_option linter.unusedSectionVars false

namespace Verif.MeshFile

variable {K : Type}

/-- What a file keeps of a geo reference: zone and origin; everything else is the default. -/
def SameOrigin (g g' : Option (Ref K)) : Prop :=
  (g = none → g' = none) ∧ ∀ r, g = some r → ∃ r', g' = some r' ∧ r'.zone = r.zone ∧ r'.xll = r.xll ∧ r'.yll = r.yll ∧
    r'.hemisphere = "undefined".toList ∧ r'.falseEasting = 500000 ∧ r'.falseNorthing = 10000000 ∧ r'.datum = "wgs84".toList ∧
    r'.projection = "UTM".toList ∧ r'.units = "m".toList

theorem sameOrigin_back (g : Option (Ref K)) : SameOrigin g (g.map fun r => Ref.plain r.zone r.xll r.yll) := by
  refine ⟨?_, ?_⟩
  · rintro rfl
    rfl
  · rintro r rfl
    exact ⟨_, rfl, rfl, rfl, rfl, rfl, rfl, rfl, rfl, rfl, rfl⟩

theorem map_strip_self {l : List Str} (h : ∀ s ∈ l, Trim s s) : l.map strip = l := by
  rw [List.map_congr_left fun s hs => strip_self (h s hs), List.map_id']

theorem keptRows_all {rows : List (List K)} (h : rows ≠ []) (hr : ∀ r ∈ rows, r ≠ []) : keptRows rows = some rows := by
  have hf : (rows.filter fun r => !r.isEmpty) = rows := by
    rw [List.filter_eq_self]
    intro r hm
    simpa using hr r hm
  unfold keptRows
  simp only [hf]
  rw [if_neg (by simpa using h)]

theorem keptRows_replicate (n : ℕ) : keptRows (List.replicate n ([] : List K)) = none := by
  have hf : ((List.replicate n ([] : List K)).filter fun r => !r.isEmpty) = [] := by
    rw [List.filter_eq_nil_iff]
    intro r hm
    simp [List.eq_of_mem_replicate hm]
  unfold keptRows
  simp only [hf]
  rfl

/-- **C106.** A mesh in which everything is there is read back from its file as it was written: vertices, attributes and their
titles, triangles, their tags and neighbours, segments, outline, holes, regions, tags and greatest areas. Of the geo reference
zone and origin come back. -/
theorem C106_tsh {c : Codec K} (hc : Faithful c) {d : Dict K} (hd : Complete d) :
    ∃ text d', writeTsh c d = some text ∧ readTsh c text = some d' ∧ d' = { d with geo := d'.geo } ∧ SameOrigin d.geo d'.geo := by
  obtain ⟨text, h1, h2⟩ := tsh_back hc hd.toWritable
  refine ⟨text, back d, h1, h2, ?_, sameOrigin_back d.geo⟩
  have ha : keptRows ((attributeRows d.vertices.length d.vertexAttributes).take d.vertices.length) = d.vertexAttributes := by
    cases hv : d.vertexAttributes with
    | none =>
      unfold attributeRows
      rw [List.take_replicate, keptRows_replicate]
    | some rows =>
      obtain ⟨h3, h4, h5⟩ := hd.allRows rows hv
      have : attributeRows d.vertices.length (some rows) = rows := by
        cases rows with
        | nil => exact absurd rfl h3
        | cons r rows => rfl
      rw [this, ← h4, List.take_length, keptRows_all h3 h5]
  have ht : some (((triangleTagRows d.triangles.length d.triangleTags).take d.triangles.length).map strip) = d.triangleTags := by
    obtain ⟨tags, h3, h4, h5⟩ := hd.allTriangleTags
    rw [h3]
    cases tags with
    | nil =>
      have h0 : d.triangles.length = 0 := h4.symm
      simp [h0]
    | cons s tags =>
      show some (((s :: tags).take _).map strip) = _
      rw [← h4, List.take_length, map_strip_self h5]
  have hn : (((neighbourRows d.triangles.length d.neighbours).take d.triangles.length).map
      (fun n => (n.1.getD (-1), n.2.1.getD (-1), n.2.2.getD (-1)))).map (fun n => (some n.1, some n.2.1, some n.2.2))
      = d.neighbours := by
    obtain ⟨h3, h4⟩ := hd.allNeighbours
    have h6 : (neighbourRows d.triangles.length d.neighbours).take d.triangles.length = d.neighbours := by
      cases hb : d.neighbours with
      | nil =>
        rw [hb] at h3
        have h0 : d.triangles.length = 0 := h3.symm
        simp [h0]
      | cons n ns =>
        show (n :: ns).take _ = _
        rw [← h3, hb, List.take_length]
    rw [h6, List.map_map]
    refine (List.map_congr_left fun n hm => ?_).trans (List.map_id _)
    obtain ⟨a, b, e⟩ := n
    obtain ⟨h7, h8, h9⟩ := h4 _ hm
    obtain ⟨a, rfl⟩ := Option.isSome_iff_exists.1 h7
    obtain ⟨b, rfl⟩ := Option.isSome_iff_exists.1 h8
    obtain ⟨e, rfl⟩ := Option.isSome_iff_exists.1 h9
    rfl
  have e1 : d.vertexTitles.map strip = d.vertexTitles := map_strip_self hd.allTitles
  have e2 : (d.segmentTags.take d.segments.length).map strip = d.segmentTags := by
    rw [← hd.allSegmentTags.1, List.take_length, map_strip_self hd.allSegmentTags.2]
  have e3 : d.pointAttributes.take d.points.length = d.pointAttributes := by
    rw [← hd.allPointAttributes, List.take_length]
  have e4 : (d.outlineTags.take d.outline.length).map strip = d.outlineTags := by
    rw [← hd.allOutlineTags.1, List.take_length, map_strip_self hd.allOutlineTags.2]
  have e5 : (d.regionTags.take d.regions.length).map strip = d.regionTags := by
    rw [← hd.allRegionTags.1, List.take_length, map_strip_self hd.allRegionTags.2]
  have e6 : d.regionAreas.take d.regions.length = d.regionAreas := by
    rw [← hd.allRegionAreas, List.take_length]
  unfold back merge backTri backOutline
  simp only
  rw [ha, ht, hn, e1, e2, e3, e4, e5, e6]

theorem forall₂_trim : ∀ l : List Str, List.Forall₂ Trim l (l.map strip)
  | [] => .nil
  | s :: l => .cons (strip_trim s) (forall₂_trim l)

/-- **C106.** Of any dictionary which can be written, the geometry comes back as it was, tags and titles come back without the
white space at their ends, missing neighbours come back as -1, missing tags of triangles as empty texts; lists longer than
needed are shortened. -/
theorem C106_tsh_any {c : Codec K} (hc : Faithful c) {d : Dict K} (hd : Writable d) :
    ∃ text d', writeTsh c d = some text ∧ readTsh c text = some d' ∧
      d'.vertices = d.vertices ∧ d'.triangles = d.triangles ∧ d'.segments = d.segments ∧ d'.points = d.points ∧
      d'.outline = d.outline ∧ d'.holes = d.holes ∧ d'.regions = d.regions ∧
      d'.pointAttributes = d.pointAttributes.take d.points.length ∧ d'.regionAreas = d.regionAreas.take d.regions.length ∧
      List.Forall₂ Trim d.vertexTitles d'.vertexTitles ∧
      List.Forall₂ Trim (d.segmentTags.take d.segments.length) d'.segmentTags ∧
      List.Forall₂ Trim (d.outlineTags.take d.outline.length) d'.outlineTags ∧
      List.Forall₂ Trim (d.regionTags.take d.regions.length) d'.regionTags ∧
      (∃ tags, d'.triangleTags = some tags ∧ tags.length = d.triangles.length ∧
        ((d.triangleTags = none ∨ d.triangleTags = some []) → ∀ s ∈ tags, s = []) ∧
        ∀ s ss, d.triangleTags = some (s :: ss) → List.Forall₂ Trim ((s :: ss).take d.triangles.length) tags) ∧
      d'.neighbours.length = d.triangles.length ∧
      (∀ (i : ℕ) (n : Option ℤ × Option ℤ × Option ℤ), d'.neighbours[i]? = some n →
        (d.neighbours = [] → n = (some (-1), some (-1), some (-1))) ∧
        ∀ m, d.neighbours[i]? = some m → n = (some (m.1.getD (-1)), some (m.2.1.getD (-1)), some (m.2.2.getD (-1)))) ∧
      SameOrigin d.geo d'.geo := by
  obtain ⟨text, h1, h2⟩ := tsh_back hc hd
  refine ⟨text, back d, h1, h2, rfl, rfl, rfl, rfl, rfl, rfl, rfl, rfl, rfl, forall₂_trim _, forall₂_trim _, forall₂_trim _,
    forall₂_trim _, ⟨_, rfl, ?_, ?_, ?_⟩, ?_, ?_, sameOrigin_back d.geo⟩
  · have := triangleTagRows_length hd.triangleTags
    show (((triangleTagRows d.triangles.length d.triangleTags).take d.triangles.length).map strip).length = _
    rw [List.length_map, List.length_take, min_eq_left this]
  · intro h s hs
    have hs : s ∈ ((triangleTagRows d.triangles.length d.triangleTags).take d.triangles.length).map strip := hs
    obtain ⟨t, ht, rfl⟩ := List.mem_map.1 hs
    have ht := List.mem_of_mem_take ht
    rcases h with h | h
    · rw [h] at ht
      rw [List.eq_of_mem_replicate ht]
      rfl
    · rw [h] at ht
      rw [List.eq_of_mem_replicate ht]
      rfl
  · intro s ss h
    show List.Forall₂ Trim _ (((triangleTagRows d.triangles.length d.triangleTags).take d.triangles.length).map strip)
    rw [h]
    exact forall₂_trim _
  · have := neighbourRows_length hd.neighbours
    show ((((neighbourRows d.triangles.length d.neighbours).take d.triangles.length).map _).map _).length = _
    rw [List.length_map, List.length_map, List.length_take, min_eq_left this]
  · intro i n hn
    have hn : ((((neighbourRows d.triangles.length d.neighbours).take d.triangles.length).map
        (fun n => (n.1.getD (-1), n.2.1.getD (-1), n.2.2.getD (-1)))).map (fun n => (some n.1, some n.2.1, some n.2.2)))[i]?
        = some n := hn
    rw [List.getElem?_map, List.getElem?_map] at hn
    cases ht : ((neighbourRows d.triangles.length d.neighbours).take d.triangles.length)[i]? with
    | none => rw [ht] at hn; exact absurd hn (by simp)
    | some m =>
      rw [ht] at hn
      have hn : (some (m.1.getD (-1)), some (m.2.1.getD (-1)), some (m.2.2.getD (-1))) = n := Option.some.inj hn
      subst hn
      have hm := List.mem_of_mem_take (List.mem_of_getElem? ht)
      refine ⟨?_, ?_⟩
      · intro h
        rw [h] at hm
        rw [List.eq_of_mem_replicate hm]
        rfl
      · intro m' hm'
        have hne : neighbourRows d.triangles.length d.neighbours = d.neighbours := by
          cases hb : d.neighbours with
          | nil => rw [hb] at hm'; exact absurd hm' (by simp)
          | cons a as => rfl
        rw [hne] at ht
        have hi : i < d.triangles.length := by
          by_contra hi
          rw [List.getElem?_take, if_neg hi] at ht
          exact absurd ht (by simp)
        rw [List.getElem?_take_of_lt hi, hm'] at ht
        rw [Option.some.inj ht]

/-- **C106.** Attributes come back as the rows which have any, one after another: where a vertex has none, those of later
vertices move forward; without any the result is `None`. -/
theorem C106_attributes {c : Codec K} (hc : Faithful c) {d : Dict K} (hd : Writable d) :
    ∃ text d', writeTsh c d = some text ∧ readTsh c text = some d' ∧
      (d.vertexAttributes = none → d'.vertexAttributes = none) ∧
      ∀ rows, d.vertexAttributes = some rows →
        ((∀ r ∈ rows.take d.vertices.length, r = []) → d'.vertexAttributes = none) ∧
        ((∃ r ∈ rows.take d.vertices.length, r ≠ []) →
          d'.vertexAttributes = some ((rows.take d.vertices.length).filter fun r => !r.isEmpty)) := by
  obtain ⟨text, h1, h2⟩ := tsh_back hc hd
  refine ⟨text, back d, h1, h2, ?_, ?_⟩
  · intro h
    show keptRows ((attributeRows d.vertices.length d.vertexAttributes).take d.vertices.length) = none
    rw [h]
    show keptRows ((List.replicate _ _).take _) = none
    rw [List.take_replicate, keptRows_replicate]
  · intro rows h
    have hb : (back d).vertexAttributes = keptRows ((attributeRows d.vertices.length (some rows)).take d.vertices.length) := by
      rw [← h]
      rfl
    rw [hb]
    cases rows with
    | nil =>
      refine ⟨fun _ => ?_, fun ⟨r, hr, _⟩ => absurd hr (by simp)⟩
      show keptRows ((List.replicate _ _).take _) = none
      rw [List.take_replicate, keptRows_replicate]
    | cons r rows =>
      have e : attributeRows d.vertices.length (some (r :: rows)) = r :: rows := rfl
      rw [e]
      generalize (r :: rows).take d.vertices.length = L
      unfold keptRows
      simp only
      refine ⟨fun ha => ?_, fun ⟨x, hx, hne⟩ => ?_⟩
      · rw [if_pos]
        rw [List.isEmpty_iff, List.filter_eq_nil_iff]
        intro x hx
        simp [ha x hx]
      · rw [if_neg]
        rw [List.isEmpty_iff, List.filter_eq_nil_iff]
        intro hall
        exact hall x hx (by simpa using hne)

end Verif.MeshFile
