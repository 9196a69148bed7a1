import Verif.Gen.LemmasTags

/-! # C90: tags from the outline to the boundary of the domain -/

set_option linter.unusedSectionVars false

namespace Verif.Gen

open Verif.Mesh (DirEdge Across Conforming)

/-- **C90.** Every tag has a code; the names of the codes are the tags again; the empty tag has code zero, no other tag has; `exterior` has
code one, the code that the generator gives to unmarked segments of the boundary; and the preset is as before, so the next mesh is treated in the
same way. -/
theorem C90_codes (tags : List String) :
    (∃ codes : List ℕ, (segCodes tags initialConversions).codes = codes.map some ∧
      segNames codes (segCodes tags initialConversions).conv = some tags ∧
      (∀ (i : ℕ) t, tags[i]? = some t → (codes[i]? = some 0 ↔ t = "") ∧ (codes[i]? = some 1 ↔ t = "exterior"))) ∧
    segNames [0, 1] (segCodes tags initialConversions).conv = some ["", "exterior"] ∧
    (segCodes tags initialConversions).preset = initialConversions := by
  obtain ⟨c0, c1, c2⟩ := conv_initial tags
  refine ⟨?_, ?_, rfl⟩
  · have hlen : (segCodes tags initialConversions).codes.length = tags.length := by simp [segCodes]
    refine ⟨(segCodes tags initialConversions).codes.map fun c => c.getD 0, ?_, ?_, ?_⟩
    · rw [List.map_map]
      apply List.ext_getElem?
      intro i
      rw [List.getElem?_map]
      cases ht : tags[i]? with
      | none =>
        rw [List.getElem?_eq_none_iff] at ht
        rw [List.getElem?_eq_none (by omega)]
        rfl
      | some t =>
        obtain ⟨c, hc, -⟩ := segCodes_getElem (preset := initialConversions) ht
        rw [hc]
        rfl
    · unfold segNames
      rw [mapM_getElem]
      refine ⟨by simp [hlen], fun i a ha => ?_⟩
      rw [List.getElem?_map] at ha
      cases ht : tags[i]? with
      | none =>
        rw [List.getElem?_eq_none_iff] at ht
        rw [List.getElem?_eq_none (by omega)] at ha
        simp at ha
      | some t =>
        obtain ⟨c, hc, h1, h2⟩ := segCodes_getElem (preset := initialConversions) ht
        rw [hc] at ha
        simp only [Option.map_some, Option.getD_some, Option.some.injEq] at ha
        subst ha
        by_cases he : t = ""
        · rw [h1 he, c0, he]
        · exact (h2 he).symm
    · intro i t ht
      obtain ⟨c, hc, h1, h2⟩ := segCodes_getElem (preset := initialConversions) ht
      rw [List.getElem?_map, hc]
      simp only [Option.map_some, Option.getD_some, Option.some.injEq]
      constructor
      · constructor
        · rintro rfl
          by_contra he
          have := h2 he
          rw [c0] at this
          simp only [Option.some.injEq] at this
          exact he this.symm
        · exact h1
      · constructor
        · rintro rfl
          have he : t ≠ "" := fun he => by simpa using h1 he
          have := h2 he
          rw [c1] at this
          simpa using this.symm
        · rintro rfl
          have := h2 (by decide)
          obtain ⟨rest, hr, -, hm⟩ := convList_eq tags initialConversions
          have hcv : (segCodes tags initialConversions).conv = ["", "exterior", ""] ++ rest := hr
          rw [hcv] at this
          match c, this with
          | 0, h => simp at h
          | 1, _ => rfl
          | 2, h => simp at h
          | c + 3, h =>
            have h' : rest[c]? = some "exterior" := by simpa using h
            have := (hm "exterior").1 (List.mem_of_getElem? h')
            simp [initialConversions] at this
  · unfold segNames
    rw [mapM_getElem]
    refine ⟨rfl, fun i a ha => ?_⟩
    match i, ha with
    | 0, ha =>
      simp only [List.getElem?_cons_zero, Option.some.injEq] at ha
      subst ha
      rw [c0]
      rfl
    | 1, ha =>
      simp only [List.getElem?_cons_succ, List.getElem?_cons_zero, Option.some.injEq] at ha
      subst ha
      rw [c1]
      rfl

example : (segCodes ["wall", "", "exterior", "sea", "wall"] initialConversions).codes = [some 4, some 0, some 1, some 3, some 4] ∧
    (segCodes ["wall", "", "exterior", "sea", "wall"] initialConversions).conv = ["", "exterior", "", "sea", "wall"] := by decide +kernel

/-- **C90.** Triangles get the tag of their region: region number `i` has code `i + 1`, code zero has the empty tag. -/
theorem C90_region_codes (tags : List String) :
    regionNames (regionCodes tags).1 (regionCodes tags).2 = some tags ∧ (regionCodes tags).1 = (List.range tags.length).map (· + 1) ∧
      regionNames [0] (regionCodes tags).2 = some [""] := by
  have hl : (regionCodes tags).2 = "" :: tags := by simp [regionCodes]
  have hc : (regionCodes tags).1 = (List.range tags.length).map (· + 1) := by
    simp [regionCodes, List.range_succ_eq_map]
  refine ⟨?_, hc, ?_⟩
  · unfold regionNames
    rw [mapM_getElem, hl, hc]
    refine ⟨by simp, fun i a ha => ?_⟩
    rw [List.getElem?_map] at ha
    by_cases hi : i < tags.length
    · rw [List.getElem?_range hi] at ha
      simp only [Option.map_some, Option.some.injEq] at ha
      subst ha
      simp
    · rw [List.getElem?_eq_none (by simpa using hi)] at ha
      simp at ha
  · unfold regionNames
    rw [mapM_getElem, hl]
    refine ⟨rfl, fun i a ha => ?_⟩
    match i, ha with
    | 0, ha =>
      simp only [List.getElem?_cons_zero, Option.some.injEq] at ha
      subst ha
      rfl

example : regionCodes ["a", "b"] = ([1, 2], ["", "a", "b"]) := by decide +kernel

/-- **C90.** Points handed to the generator are distinct, none is lost, their order is kept, and every segment has the same end points as
before. -/
theorem C90_distinct_points {P : Type*} [DecidableEq P] (points : List P) (segs : List (ℕ × ℕ)) :
    (dedupPoints points segs).1.Nodup ∧ (dedupPoints points segs).1.Sublist points ∧ (∀ p ∈ points, p ∈ (dedupPoints points segs).1) ∧
      (dedupPoints points segs).2.map (fun q => ((dedupPoints points segs).1[q.1]?, (dedupPoints points segs).1[q.2]?)) =
        segs.map (fun q => (points[q.1]?, points[q.2]?)) := by
  have h0 : Kept points segs ⟨0, points, segs⟩ := by
    refine ⟨List.Sublist.refl _, fun p hp => hp, ?_, rfl⟩
    match points with
    | [] => simp
    | p :: l => simp
  obtain ⟨h, hl⟩ := kept_loop points.length ⟨0, points, segs⟩ h0 (by simp)
  refine ⟨?_, h.sub, h.mem, h.ends⟩
  have := h.prefix_
  rwa [List.take_of_length_le hl] at this

example : dedupPoints [10, 20, 10, 30, 20] [(0, 1), (2, 3), (3, 4)] = ([10, 20, 30], [(0, 1), (0, 2), (2, 1)]) := by decide +kernel

/-- **C90.** The dictionary of tagged edges exists exactly for conforming meshes; an edge has the tag of the last tagged segment it lies on. -/
theorem C90_edge_tags (tris : List Mesh.Tri) (segs : List (ℕ × ℕ)) (tags : List String) :
    ((∃ d, tagDict tris segs tags = some d) ↔ Conforming tris) ∧
      ∀ d, tagDict tris segs tags = some d → (d.map Prod.fst).Nodup ∧ ∀ k e t, d.lookup (k, e) = some t ↔ LastTag tris (segs.zip tags) k e t := by
  unfold tagDict
  rw [← sideTable_isSome]
  cases h : sideTable tris with
  | none => simp
  | some tbl =>
    simp only [Option.some.injEq, exists_eq', true_and]
    rintro d rfl
    exact fold_tags h _

example : tagDict [(0, 1, 2), (2, 3, 0)] [(0, 1), (3, 2), (0, 2), (0, 1)] ["wall", "sea", "", "land"] =
    some [((0, 2), "land"), ((1, 2), "sea")] := by decide +kernel

/-- **C90.** Each tag of the regions leads to exactly its triangles, in order; a tag that no triangle has is missing. -/
theorem C90_tagged_elements (nTri : ℕ) (tags : Option (List String)) (t : String) :
    (taggedElements nTri tags).lookup t = match tags with
      | none => if t = "" then some (List.range nTri) else none
      | some l => if t ∈ l then some ((List.range l.length).filter fun i => l[i]? == some t) else none := by
  unfold taggedElements
  cases tags with
  | none =>
    simp only [List.lookup_cons, List.lookup_nil]
    by_cases h : t = ""
    · subst h; simp
    · have : (t == "") = false := by simpa using h
      rw [this, if_neg h]
  | some l =>
    simp only
    induction l using List.reverseRecOn with
    | nil => simp
    | append_singleton l u ih =>
      rw [List.zipIdx_append, List.foldl_append]
      simp only [List.zipIdx_singleton, List.foldl_cons, List.foldl_nil, Nat.zero_add]
      rw [lookup_appendTo]
      have hf : (List.range (l ++ [u]).length).filter (fun i => (l ++ [u])[i]? == some t) =
          (List.range l.length).filter (fun i => l[i]? == some t) ++ if u = t then [l.length] else [] := by
        rw [List.length_append, List.length_singleton, List.range_succ, List.filter_append]
        congr 1
        · apply List.filter_congr
          intro i hi
          rw [List.getElem?_append_left (List.mem_range.1 hi)]
        · rw [List.filter_cons, List.getElem?_append_right (le_refl _), Nat.sub_self]
          simp only [List.getElem?_cons_zero, List.filter_nil]
          by_cases hu : u = t
          · subst hu; simp
          · simp [hu]
      rw [hf]
      by_cases ht : t = u
      · subst ht
        rw [if_pos rfl, if_pos (by simp), if_pos rfl, ih]
        by_cases hm : t ∈ l
        · rw [if_pos hm, Option.getD_some]
        · rw [if_neg hm, Option.getD_none]
          congr 2
          symm
          rw [List.filter_eq_nil_iff]
          intro i hi hc
          exact hm (List.mem_of_getElem? (by simpa using hc))
      · rw [if_neg ht, ih]
        have : u ≠ t := fun h => ht h.symm
        simp only [List.mem_append, List.mem_cons, List.not_mem_nil, or_false, ht, if_neg this, List.append_nil]

example : taggedElements 3 (some ["a", "", "a"]) = [("a", [0, 2]), ("", [1])] := by decide +kernel

/-- **C90.** Attributes: without a stage the stage is the elevation; otherwise nothing changes. -/
theorem C90_stage {V : Type*} (d : List (String × V)) :
    ((withStage d).lookup "stage" = match d.lookup "stage" with
      | some v => some v
      | none => d.lookup "elevation") ∧ ∀ q, q ≠ "stage" → (withStage d).lookup q = d.lookup q := by
  unfold withStage
  cases he : d.lookup "elevation" with
  | none =>
    refine ⟨?_, fun _ _ => rfl⟩
    cases hs : d.lookup "stage" <;> rfl
  | some v =>
    simp only
    by_cases hs : (d.lookup "stage").isSome = true
    · rw [if_pos hs]
      refine ⟨?_, fun _ _ => rfl⟩
      obtain ⟨w, hw⟩ := Option.isSome_iff_exists.1 hs
      rw [hw]
    · rw [if_neg hs]
      have hn : d.lookup "stage" = none := Option.not_isSome_iff_eq_none.1 hs
      refine ⟨?_, fun q hq => ?_⟩
      · rw [List.lookup_append, hn]
        simp
      · have : (q == "stage") = false := by simpa using hq
        rw [List.lookup_append, List.lookup_cons, this, List.lookup_nil, Option.or_none]

example : withStage [("elevation", 3), ("friction", 1)] = [("elevation", 3), ("friction", 1), ("stage", 3)] := by decide +kernel

theorem On.lt {tris : List (ℕ × ℕ × ℕ)} {k e : ℕ} {s : ℕ × ℕ} (h : On tris k e s) : k < tris.length ∧ e < 3 := by
  rcases h with ⟨n0, n1, n2, h1, h2⟩ | ⟨n0, n1, n2, h1, h2⟩
  all_goals
    refine ⟨?_, by omega⟩
    by_contra hc
    rw [List.getElem?_eq_none (by omega)] at h1
    simp at h1

/-- Two edges on the same segment are the same or are across from each other. -/
theorem on_or_across {tris : List (ℕ × ℕ × ℕ)} (hc : Conforming tris) {k e k' e' : ℕ} {s : ℕ × ℕ} (h : On tris k e s) (h' : On tris k' e' s) :
    (k = k' ∧ e = e') ∨ Across tris k' e' k e := by
  rcases h with h | h <;> rcases h' with h' | h'
  · exact Or.inl (hc _ _ _ _ _ _ h h')
  · exact Or.inr ⟨s.2, s.1, h', h⟩
  · exact Or.inr ⟨s.1, s.2, h', h⟩
  · exact Or.inl (hc _ _ _ _ _ _ h h')

/-- **C90.** From the outline to the domain: if the generator is faithful, the domain is made, and its boundary consists of the edges on
segments that have a tag in the outline, with that tag, and of the other edges without a triangle behind them, with tag `exterior`. -/
theorem C90_domain {segtags : List String} {gen : List (Option ℕ) → List Mesh.Tri × List (ℕ × ℕ) × List ℕ} {tris : List Mesh.Tri}
    {segs : List (ℕ × ℕ)} {markers : List ℕ} {origin : ℕ → Option ℕ}
    (hg : gen (segCodes segtags initialConversions).codes = (tris, segs, markers))
    (hf : Faithful (segCodes segtags initialConversions).codes tris segs markers origin) :
    ∃ m, domainOf segtags gen = some m ∧ ∀ k e tag, m.boundary.lookup (k, e) = some tag ↔
      ((tag ≠ "" ∧ ∃ (j i : ℕ) (s : ℕ × ℕ), segs[j]? = some s ∧ On tris k e s ∧ origin j = some i ∧ segtags[i]? = some tag) ∨
        ((∀ (j i : ℕ) (s : ℕ × ℕ), segs[j]? = some s → On tris k e s → origin j = some i → segtags[i]? = some "") ∧
          k < tris.length ∧ e < 3 ∧ (¬ ∃ l f, Across tris k e l f) ∧ tag = "exterior")) := by
  obtain ⟨c0, c1, -⟩ := conv_initial segtags
  have hclen : (segCodes segtags initialConversions).codes.length = segtags.length := by simp [segCodes]
  -- the name of each marker
  have hname : ∀ (j : ℕ) s, segs[j]? = some s → ∃ c t, markers[j]? = some c ∧ (segCodes segtags initialConversions).conv[c]? = some t ∧
      ((∃ i, origin j = some i ∧ segtags[i]? = some t ∧ t ≠ "") ∨ ((∀ i, origin j = some i → segtags[i]? = some "") ∧
        ((∃ k e, On tris k e s ∧ ¬ ∃ l f, Across tris k e l f) → t = "exterior") ∧
        ((¬ ∃ k e, On tris k e s ∧ ¬ ∃ l f, Across tris k e l f) → t = ""))) := by
    intro j s hs
    have hj : j < segs.length := by
      by_contra hc
      rw [List.getElem?_eq_none (by omega)] at hs
      simp at hs
    by_cases ho : ∃ i t, origin j = some i ∧ segtags[i]? = some t ∧ t ≠ ""
    · obtain ⟨i, t, h1, h2, h3⟩ := ho
      obtain ⟨c, hc, -, h5⟩ := segCodes_getElem (preset := initialConversions) h2
      have hcv := h5 h3
      have hne : c ≠ 0 := by
        rintro rfl
        rw [c0] at hcv
        simp only [Option.some.injEq] at hcv
        exact h3 hcv.symm
      exact ⟨c, t, hf.inherits j i c hj h1 hc hne, hcv, Or.inl ⟨i, h1, h2, h3⟩⟩
    · have hall : ∀ i, origin j = some i → segtags[i]? = some "" := by
        intro i hi
        have hil := hf.exists_ j i hi
        rw [hclen] at hil
        rw [List.getElem?_eq_getElem hil]
        congr 1
        by_contra hne
        exact ho ⟨i, _, hi, List.getElem?_eq_getElem hil, hne⟩
      have hz := hf.zero j s hs (fun i hi => by
        obtain ⟨c, hc, h4, -⟩ := segCodes_getElem (preset := initialConversions) (hall i hi)
        rw [hc, h4 rfl])
      by_cases hb : ∃ k e, On tris k e s ∧ ¬ ∃ l f, Across tris k e l f
      · exact ⟨1, "exterior", hz.1 hb, c1, Or.inr ⟨hall, fun _ => rfl, fun h => absurd hb h⟩⟩
      · exact ⟨0, "", hz.2 hb, c0, Or.inr ⟨hall, fun h => absurd h hb, fun _ => rfl⟩⟩
  -- all names exist
  have hnames : ∃ names, segNames markers (segCodes segtags initialConversions).conv = some names := by
    refine ⟨markers.map fun c => ((segCodes segtags initialConversions).conv[c]?).getD "", ?_⟩
    unfold segNames
    rw [mapM_getElem]
    refine ⟨by simp, fun j a ha => ?_⟩
    rw [List.getElem?_map, ha, Option.map_some]
    have hj : j < segs.length := by
      rw [← hf.length]
      by_contra hc
      rw [List.getElem?_eq_none (by omega)] at ha
      simp at ha
    obtain ⟨c, t, h1, h2, -⟩ := hname j _ (List.getElem?_eq_getElem hj)
    rw [h1] at ha
    simp only [Option.some.injEq] at ha
    subst ha
    rw [h2, Option.getD_some]
  obtain ⟨names, hnames⟩ := hnames
  obtain ⟨hnl, hng⟩ := (mapM_getElem _ _ _).1 hnames
  have hname' : ∀ (j : ℕ) s, segs[j]? = some s → ∃ t, names[j]? = some t ∧
      ((∃ i, origin j = some i ∧ segtags[i]? = some t ∧ t ≠ "") ∨ ((∀ i, origin j = some i → segtags[i]? = some "") ∧
        ((∃ k e, On tris k e s ∧ ¬ ∃ l f, Across tris k e l f) → t = "exterior") ∧
        ((¬ ∃ k e, On tris k e s ∧ ¬ ∃ l f, Across tris k e l f) → t = ""))) := by
    intro j s hs
    obtain ⟨c, t, h1, h2, h3⟩ := hname j s hs
    exact ⟨t, by rw [hng j c h1]; exact h2, h3⟩
  -- the dictionary
  obtain ⟨hex, hspec⟩ := C90_edge_tags tris segs names
  obtain ⟨d, hd⟩ := hex.2 hf.conforming
  obtain ⟨hnd, hlk⟩ := hspec d hd
  have hmem : ∀ k e t, ((k, e), t) ∈ d ↔ ∃ (j : ℕ) (s : ℕ × ℕ), segs[j]? = some s ∧ names[j]? = some t ∧ t ≠ "" ∧ On tris k e s := by
    intro k e t
    rw [← Mesh.lookup_eq_some_iff d hnd, hlk]
    constructor
    · rintro ⟨A, s, B, h1, h2, h3, -⟩
      have hz : (segs.zip names)[A.length]? = some (s, t) := by rw [h1]; simp
      rw [List.getElem?_zip_eq_some] at hz
      exact ⟨A.length, s, hz.1, hz.2, h2, h3⟩
    · rintro ⟨j, s, h1, h2, h3, h4⟩
      have hz : (segs.zip names)[j]? = some (s, t) := by
        rw [List.getElem?_zip_eq_some]
        exact ⟨h1, h2⟩
      have hjl : j < (segs.zip names).length := by
        by_contra hc
        rw [List.getElem?_eq_none (by omega)] at hz
        simp at hz
      have hsplit : segs.zip names = (segs.zip names).take j ++ (s, t) :: (segs.zip names).drop (j + 1) := by
        conv_lhs => rw [← List.take_append_drop j (segs.zip names)]
        rw [List.drop_eq_getElem_cons hjl]
        rw [List.getElem?_eq_getElem hjl, Option.some.injEq] at hz
        rw [hz]
      refine ⟨_, s, _, hsplit, h3, h4, ?_⟩
      intro q hq _ hon
      obtain ⟨r, hr⟩ := List.getElem?_of_mem hq
      rw [List.getElem?_drop] at hr
      have : (segs.zip names)[j + 1 + r]? = some (q.1, q.2) := hr
      rw [List.getElem?_zip_eq_some] at this
      have := hf.once j (j + 1 + r) s q.1 k e h1 this.1 h4 hon
      omega
  -- the mesh
  have hok : ∃ m, Mesh.buildMesh tris d = .ok m := by
    cases hm : Mesh.buildMesh tris d with
    | ok m => exact ⟨m, rfl⟩
    | error err =>
      exfalso
      cases err with
      | noSuchSegment =>
        obtain ⟨-, x, hx, hn⟩ := (Mesh.C07_bad_segment_rejected tris d).1 hm
        obtain ⟨⟨k, e⟩, t⟩ := x
        obtain ⟨j, s, -, -, -, hon⟩ := (hmem k e t).1 hx
        exact hn hon.lt
      | duplicateEdge =>
        unfold Mesh.buildMesh at hm
        cases hb : Mesh.buildNeighbours tris with
        | none => exact (Mesh.C06_rejects_exactly_nonconforming tris).1 hb hf.conforming
        | some nb =>
          rw [hb] at hm
          simp only at hm
          split at hm <;> simp at hm
  obtain ⟨m, hm⟩ := hok
  refine ⟨m, ?_, ?_⟩
  · unfold domainOf
    simp only [hg, hnames, hd, hm]
  · intro k e tag
    rw [Mesh.C07_tags tris d hnd m hm]
    simp only [hmem]
    constructor
    · rintro (⟨j, s, h1, h2, h3, h4⟩ | ⟨h1, h2, h3, h4, h5⟩)
      · obtain ⟨t, h5, h6⟩ := hname' j s h1
        rw [h2] at h5
        simp only [Option.some.injEq] at h5
        subst h5
        rcases h6 with ⟨i, h6, h7, h8⟩ | ⟨h6, h7, h8⟩
        · exact Or.inl ⟨h3, j, i, s, h1, h4, h6, h7⟩
        · have hb : ∃ k e, On tris k e s ∧ ¬ ∃ l f, Across tris k e l f := by
            by_contra hb
            exact h3 (h8 hb)
          right
          refine ⟨?_, h4.lt.1, h4.lt.2, ?_, h7 hb⟩
          · intro j' i s' g1 g2 g3
            have := hf.once j j' s s' k e h1 g1 h4 g2
            subst this
            exact h6 i g3
          · obtain ⟨k', e', g1, g2⟩ := hb
            rcases on_or_across hf.conforming h4 g1 with ⟨rfl, rfl⟩ | g3
            · exact g2
            · exact absurd ⟨_, _, g3⟩ g2
      · refine Or.inr ⟨?_, h2, h3, h4, h5⟩
        intro j i s g1 g2 g3
        obtain ⟨t, g4, g5⟩ := hname' j s g1
        rcases g5 with ⟨i', g6, g7, g8⟩ | ⟨g6, -⟩
        · exact absurd ⟨j, s, g1, g4, g8, g2⟩ (h1 t)
        · exact g6 i g3
    · rintro (⟨h1, j, i, s, h2, h3, h4, h5⟩ | ⟨h1, h2, h3, h4, h5⟩)
      · obtain ⟨t, g1, g2⟩ := hname' j s h2
        left
        refine ⟨j, s, h2, ?_, h1, h3⟩
        rcases g2 with ⟨i', g3, g4, g5⟩ | ⟨g3, -⟩
        · rw [h4] at g3
          simp only [Option.some.injEq] at g3
          subst g3
          rw [h5] at g4
          simp only [Option.some.injEq] at g4
          rw [g1, g4]
        · rw [g3 i h4] at h5
          simp only [Option.some.injEq] at h5
          exact absurd h5.symm h1
      · by_cases hex : ∃ (j : ℕ) (s : ℕ × ℕ), segs[j]? = some s ∧ On tris k e s
        · obtain ⟨j, s, g1, g2⟩ := hex
          obtain ⟨t, g3, g4⟩ := hname' j s g1
          rcases g4 with ⟨i, g5, g6, g7⟩ | ⟨g5, g6, -⟩
          · have := h1 j i s g1 g2 g5
            rw [this] at g6
            simp only [Option.some.injEq] at g6
            exact absurd g6.symm g7
          · have ht := g6 ⟨k, e, g2, h4⟩
            left
            refine ⟨j, s, g1, ?_, by rw [h5]; decide, g2⟩
            rw [g3, ht, h5]
        · right
          refine ⟨?_, h2, h3, h4, h5⟩
          rintro t ⟨j, s, g1, -, -, g2⟩
          exact hex ⟨j, s, g1, g2⟩

end Verif.Gen
