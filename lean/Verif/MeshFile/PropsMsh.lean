import Verif.MeshFile.SpecMsh
import Verif.MeshFile.Props

/-! # C107: what is kept by a mesh file in NetCDF form -/

set_option linter.unusedSectionVars false

namespace Verif.MeshFile

variable {K : Type}

theorem white_space : White ' ' := by
  unfold White
  decide

theorem trim_ljust (n : ℕ) (s : Str) : Trim s (strip (ljust n s)) := by
  have h := strip_trim s
  have h1 : Trim (ljust n s) (strip s) := by
    obtain ⟨a, b, h1, h2, h3, h4, h5⟩ := h
    refine ⟨a, b ++ List.replicate (n - s.length) ' ', ?_, h2, ?_, h4, h5⟩
    · unfold ljust
      rw [← List.append_assoc, ← h1]
    · intro c hc
      rcases List.mem_append.1 hc with hc | hc
      · exact h3 c hc
      · rw [List.eq_of_mem_replicate hc]
        exact white_space
  rw [← trim_strip h1]
  exact h

theorem length_charRows (tags : List Str) : (charRows tags).length = tags.length := by
  unfold charRows
  simp only [List.length_map]
  split
  · next h => rw [h]; rfl
  · rfl

theorem trim_map_ljust (n : ℕ) : ∀ tags : List Str, List.Forall₂ Trim tags (tags.map (strip ∘ ljust n))
  | [] => .nil
  | a :: l => .cons (trim_ljust n a) (trim_map_ljust n l)

theorem trim_charRows (tags : List Str) : List.Forall₂ Trim tags ((charRows tags).map strip) := by
  unfold charRows
  simp only []
  split
  · next h =>
    rw [h]
    exact .cons (strip_trim []) .nil
  · rw [List.map_map]
    exact trim_map_ljust _ _

theorem length_le_maxLen : ∀ {l : List Str} {s : Str}, s ∈ l → s.length ≤ maxLen l
  | a :: l, s, h => by
    show s.length ≤ max a.length (maxLen l)
    rcases List.mem_cons.1 h with rfl | h
    · exact Nat.le_max_left _ _
    · exact (length_le_maxLen h).trans (Nat.le_max_right _ _)

theorem length_ljust {n : ℕ} {s : Str} (h : s.length ≤ n) : (ljust n s).length = n := by
  unfold ljust
  rw [List.length_append, List.length_replicate]
  omega

/-- All rows of the table have the same width, which no tag exceeds. -/
theorem charRows_width {tags : List Str} {r : Str} (hr : r ∈ charRows tags) (s : Str) (hs : s ∈ tags) : s.length ≤ r.length := by
  unfold charRows at hr
  simp only [List.mem_map] at hr
  obtain ⟨u, hu, rfl⟩ := hr
  split at hu
  · next h =>
    rw [h] at hs
    rw [List.mem_singleton.1 hs]
    exact Nat.zero_le _
  · next h =>
    rw [if_neg h, length_ljust (length_le_maxLen hu)]
    exact length_le_maxLen hs

/-- Tags read again from the table of characters are the tags without white space at their ends. -/
theorem tagVar_back {n : ℕ} {tags : List Str} {v : Option (List Str)} (h : tagVar n tags = some v) (hn : tags.length = n) :
    List.Forall₂ Trim tags (readTags n v) := by
  unfold tagVar at h
  by_cases ha : ascii tags = true
  · rw [if_pos ha] at h
    by_cases h0 : n = 0
    · rw [if_pos h0] at h
      obtain rfl := Option.some.inj h
      rw [h0] at hn ⊢
      rw [List.eq_nil_of_length_eq_zero hn]
      exact .nil
    · rw [if_neg h0] at h
      cases hc : charRows tags with
      | nil => rw [hc] at h; exact absurd h (by simp)
      | cons r rs =>
        rw [hc] at h
        simp only [] at h
        by_cases hr : r.length = 0
        · rw [if_pos hr] at h
          obtain rfl := Option.some.inj h
          have he : ∀ s ∈ tags, s = [] := by
            intro s hs
            have := charRows_width (tags := tags) (r := r) (by rw [hc]; exact List.mem_cons_self) s hs
            exact List.eq_nil_of_length_eq_zero (by omega)
          have : tags = List.replicate n [] := by
            rw [List.eq_replicate_iff]
            exact ⟨hn, he⟩
          show List.Forall₂ Trim tags (List.replicate n [])
          rw [this]
          have e : (List.replicate n ([] : Str)).map strip = List.replicate n [] := by
            rw [List.map_replicate]
            rfl
          have := forall₂_trim (List.replicate n [])
          rwa [e] at this
        · rw [if_neg hr] at h
          by_cases hl : (r :: rs).length = n
          · rw [if_pos hl] at h
            obtain rfl := Option.some.inj h
            show List.Forall₂ Trim tags ((r :: rs).map strip)
            rw [← hc]
            exact trim_charRows tags
          · rw [if_neg hl] at h
            exact absurd h (by simp)
  · rw [if_neg ha] at h
    exact absurd h (by simp)

theorem stored_back {α : Type} (l : List α) : (stored l).getD [] = l := by
  cases l <;> rfl

theorem neighbourInts_back : ∀ {l : List (Option ℤ × Option ℤ × Option ℤ)} {m : List (ℤ × ℤ × ℤ)}, neighbourInts l = some m →
    m.map (fun n => (some n.1, some n.2.1, some n.2.2)) = l
  | [], m, h => by
    obtain rfl := Option.some.inj h
    rfl
  | n :: l, m, h => by
    unfold neighbourInts at h
    rw [List.mapM_cons] at h
    simp only [Option.bind_eq_bind, Option.bind_eq_some_iff, Option.pure_def] at h
    obtain ⟨t, h1, m', h2, h3⟩ := h
    obtain rfl := Option.some.inj h3
    have ih := neighbourInts_back (l := l) h2
    rw [List.map_cons, ih]
    congr 1
    obtain ⟨a, b, e⟩ := n
    cases a with
    | none => exact absurd h1 (by simp)
    | some a =>
      cases b with
      | none => exact absurd h1 (by simp)
      | some b =>
        cases e with
        | none => exact absurd h1 (by simp)
        | some e =>
          simp only [] at h1
          by_cases hf : (fits a && fits b && fits e) = true
          · rw [if_pos hf] at h1
            rw [← Option.some.inj h1]
          · rw [if_neg hf] at h1
            exact absurd h1 (by simp)

theorem uniform_iff (rows : List (List K)) : uniform rows = true ↔ ∀ r ∈ rows, r.length = (rows.headD []).length := by
  unfold uniform
  rw [List.all_eq_true]
  simp

theorem pointVar_back {n : ℕ} {rows : List (List K)} {v : Option (List (List K))} (h : pointVar n rows = some v)
    (hn : rows.length = n) : v.getD (List.replicate n []) = rows := by
  unfold pointVar at h
  by_cases hu : uniform rows = true
  · rw [if_neg (by simp [hu])] at h
    by_cases h0 : n = 0 ∨ rows = [] ∨ (rows.headD []).length = 0
    · rw [if_pos h0] at h
      obtain rfl := Option.some.inj h
      show List.replicate n [] = rows
      refine (List.eq_replicate_iff.2 ⟨hn, fun r hr => ?_⟩).symm
      rcases h0 with h0 | h0 | h0
      · rw [h0] at hn
        rw [List.eq_nil_of_length_eq_zero hn] at hr
        exact absurd hr (by simp)
      · rw [h0] at hr
        exact absurd hr (by simp)
      · have := (uniform_iff rows).1 hu r hr
        exact List.eq_nil_of_length_eq_zero (this.trans h0)
    · rw [if_neg h0, if_pos hn] at h
      obtain rfl := Option.some.inj h
      rfl
  · rw [if_pos (by simp [hu])] at h
    exact absurd h (by simp)

theorem attributeVars_back {n : ℕ} {atts : Option (List (List K))} {titles : List Str} {va : Option (List (List K))}
    {vt : Option (List Str)} (h : attributeVars n atts titles = some (va, vt)) :
    (va = none ∧ readTags 0 vt = [] ∨ va = atts ∧ List.Forall₂ Trim titles (readTags 0 vt)) ∧
    ((∃ rows, atts = some rows ∧ rows.length = n ∧ ∃ r ∈ rows, r ≠ []) → va = atts) := by
  unfold attributeVars at h
  cases atts with
  | none =>
    refine ⟨?_, ?_⟩
    · left
      simp only [] at h
      by_cases ht : titles.isEmpty = true
      · rw [if_pos ht] at h
        have he := (Prod.mk.injEq _ _ _ _).mp (Option.some.inj h)
        exact ⟨he.1.symm, by rw [← he.2]; rfl⟩
      · rw [if_neg ht] at h
        exact absurd h (by simp)
    · rintro ⟨rows, hr, -⟩
      exact absurd hr (by simp)
  | some rows =>
    simp only [] at h
    by_cases h1 : (!uniform rows || !ascii titles) = true
    · rw [if_pos h1] at h
      exact absurd h (by simp)
    rw [if_neg h1] at h
    by_cases h2 : (!titles.isEmpty && (n == 0 || (!rows.isEmpty && decide (rows.length ≠ n)))) = true
    · rw [if_pos h2] at h
      exact absurd h (by simp)
    rw [if_neg h2] at h
    by_cases h3 : n = 0 ∨ rows = [] ∨ (rows.headD []).length = 0
    · rw [if_pos h3] at h
      have he := (Prod.mk.injEq _ _ _ _).mp (Option.some.inj h)
      refine ⟨Or.inl ⟨he.1.symm, by rw [← he.2]; rfl⟩, ?_⟩
      rintro ⟨rows', hr', hn, r, hr, hne⟩
      obtain rfl := Option.some.inj hr'
      exfalso
      rcases h3 with h3 | h3 | h3
      · rw [h3] at hn
        rw [List.eq_nil_of_length_eq_zero hn] at hr
        exact absurd hr (by simp)
      · rw [h3] at hr
        exact absurd hr (by simp)
      · have hu : uniform rows = true := by
          by_contra hu
          exact h1 (by simp [hu])
        exact hne (List.eq_nil_of_length_eq_zero (((uniform_iff rows).1 hu r hr).trans h3))
    · rw [if_neg h3] at h
      by_cases h4 : (titles.isEmpty || decide (titles.length ≠ (rows.headD []).length) || decide (maxLen (charRows titles) = 0)) = true
      · rw [if_pos h4] at h
        exact absurd h (by simp)
      · rw [if_neg h4] at h
        have he := (Prod.mk.injEq _ _ _ _).mp (Option.some.inj h)
        refine ⟨Or.inr ⟨he.1.symm, ?_⟩, fun _ => he.1.symm⟩
        rw [← he.2]
        exact trim_charRows titles

/-- **C107.** Whatever is written is right: if a mesh can be written to a NetCDF file at all, what is read from the file has the same
vertices, triangles, segments, outline, holes, regions, greatest areas and geo reference; tags and titles come back without the
white space at their ends. -/
theorem C107_written_is_right {d : Dict K} {f : Nc K} (h : writeMsh d = some f) :
    (readMsh f).vertices = d.vertices ∧ (readMsh f).triangles = d.triangles ∧ (readMsh f).segments = d.segments ∧
    (readMsh f).points = d.points ∧ (readMsh f).outline = d.outline ∧ (readMsh f).holes = d.holes ∧
    (readMsh f).regions = d.regions ∧ (readMsh f).geo = d.geo ∧
    (d.triangles ≠ [] ∨ d.neighbours = [] → (readMsh f).neighbours = d.neighbours) ∧
    (d.regions ≠ [] ∨ d.regionAreas = [] → (readMsh f).regionAreas = d.regionAreas) ∧
    (d.segmentTags.length = d.segments.length → List.Forall₂ Trim d.segmentTags (readMsh f).segmentTags) ∧
    (d.outlineTags.length = d.outline.length → List.Forall₂ Trim d.outlineTags (readMsh f).outlineTags) ∧
    (d.regionTags.length = d.regions.length → List.Forall₂ Trim d.regionTags (readMsh f).regionTags) ∧
    (∀ tags, d.triangleTags = some tags → tags.length = d.triangles.length →
      ∃ tags', (readMsh f).triangleTags = some tags' ∧ List.Forall₂ Trim tags tags') ∧
    (d.pointAttributes.length = d.points.length → (readMsh f).pointAttributes = d.pointAttributes) ∧
    ((readMsh f).vertexAttributes = none ∧ (readMsh f).vertexTitles = [] ∨ (readMsh f).vertexAttributes = d.vertexAttributes ∧
      List.Forall₂ Trim d.vertexTitles (readMsh f).vertexTitles) ∧
    ((∃ rows, d.vertexAttributes = some rows ∧ rows.length = d.vertices.length ∧ ∃ r ∈ rows, r ≠ []) →
      (readMsh f).vertexAttributes = d.vertexAttributes) := by
  unfold writeMsh at h
  simp only [Option.bind_eq_bind, Option.bind_eq_some_iff] at h
  obtain ⟨⟨va, vt⟩, hva, nb, hnb, st, hst, tt, htt, ot, hot, rt, hrt, pa, hpa, h⟩ := h
  by_cases h1 : (!fits2 d.segments || !fits3 d.triangles || !fits2 d.outline) = true
  · rw [if_pos h1] at h
    exact absurd h (by simp)
  rw [if_neg h1] at h
  by_cases h2 : d.triangles.length ≠ 0 ∧ nb.length ≠ d.triangles.length
  · rw [if_pos h2] at h
    exact absurd h (by simp)
  rw [if_neg h2] at h
  by_cases h3 : d.regions.length ≠ 0 ∧ d.regionAreas.length ≠ d.regions.length
  · rw [if_pos h3] at h
    exact absurd h (by simp)
  rw [if_neg h3] at h
  obtain rfl := Option.some.inj h
  have htri : (if (if d.triangles.isEmpty = true then none else some nb).isSome = true then (stored d.triangles).getD [] else [])
      = d.triangles := by
    cases d.triangles <;> rfl
  have ha := attributeVars_back hva
  refine ⟨stored_back _, htri, stored_back _, stored_back _, stored_back _, stored_back _, stored_back _, rfl, ?_, ?_, ?_, ?_, ?_, ?_, ?_,
    ha.1, ha.2⟩
  · intro hne
    have hnb' := neighbourInts_back hnb
    show (if (stored d.triangles).isSome = true then
      ((if d.triangles.isEmpty = true then none else some nb).getD []).map _ else []) = d.neighbours
    cases ht : d.triangles with
    | nil => exact (hne.resolve_left fun h => h ht).symm
    | cons t l => exact hnb'
  · intro hne
    show (if d.regions.isEmpty = true then none else some d.regionAreas).getD [] = d.regionAreas
    cases ht : d.regions with
    | nil => exact (hne.resolve_left fun h => h ht).symm
    | cons t l => rfl
  · intro hn
    show List.Forall₂ Trim _ (readTags ((stored d.segments).getD []).length st)
    rw [stored_back]
    exact tagVar_back hst hn
  · intro hn
    show List.Forall₂ Trim _ (readTags ((stored d.outline).getD []).length ot)
    rw [stored_back]
    exact tagVar_back hot hn
  · intro hn
    show List.Forall₂ Trim _ (readTags ((stored d.regions).getD []).length rt)
    rw [stored_back]
    exact tagVar_back hrt hn
  · intro tags ht hn
    refine ⟨_, rfl, ?_⟩
    simp only [htri]
    rw [ht] at htt
    exact tagVar_back htt hn
  · intro hn
    show pa.getD (List.replicate ((stored d.points).getD []).length []) = _
    rw [stored_back]
    exact pointVar_back hpa hn

theorem ascii_of {tags : List Str} (h : ∀ s ∈ tags, Bytes s) : ascii tags = true := by
  unfold ascii
  rw [List.all_eq_true]
  intro s hs
  rw [List.all_eq_true]
  intro c hc
  exact decide_eq_true (h s hs c hc)

theorem fits_of {i : ℤ} (h : Int32 i) : fits i = true := by
  unfold Int32 at h
  unfold fits
  rw [decide_eq_true_eq]
  norm_num at h
  omega

theorem tagVar_some {n : ℕ} {tags : List Str} (hn : tags.length = n) (hb : ∀ s ∈ tags, Bytes s) : ∃ v, tagVar n tags = some v := by
  unfold tagVar
  rw [if_pos (ascii_of hb)]
  by_cases h0 : n = 0
  · exact ⟨_, if_pos h0⟩
  · rw [if_neg h0]
    have hl := length_charRows tags
    cases hc : charRows tags with
    | nil =>
      rw [hc] at hl
      exact absurd (hn.symm.trans hl.symm) h0
    | cons r rs =>
      simp only []
      by_cases hr : r.length = 0
      · exact ⟨_, if_pos hr⟩
      · rw [if_neg hr]
        rw [hc] at hl
        exact ⟨_, if_pos (hl.trans hn)⟩

theorem neighbourInts_some : ∀ {l : List (Option ℤ × Option ℤ × Option ℤ)},
    (∀ n ∈ l, ∃ a b e, n = (some a, some b, some e) ∧ Int32 a ∧ Int32 b ∧ Int32 e) → ∃ m, neighbourInts l = some m
  | [], _ => ⟨[], rfl⟩
  | n :: l, h => by
    obtain ⟨a, b, e, rfl, ha, hb, he⟩ := h n List.mem_cons_self
    obtain ⟨m, hm⟩ := neighbourInts_some (l := l) fun n hn => h n (List.mem_cons_of_mem _ hn)
    refine ⟨(a, b, e) :: m, ?_⟩
    unfold neighbourInts at hm ⊢
    rw [List.mapM_cons, hm]
    simp only [fits_of ha, fits_of hb, fits_of he]
    rfl

theorem pointVar_some {n k : ℕ} {rows : List (List K)} (hn : rows.length = n) (hk : ∀ r ∈ rows, r.length = k) :
    ∃ v, pointVar n rows = some v := by
  have hu : uniform rows = true := by
    rw [uniform_iff]
    intro r hr
    cases rows with
    | nil => exact absurd hr (by simp)
    | cons a l => exact (hk r hr).trans (hk a List.mem_cons_self).symm
  unfold pointVar
  rw [if_neg (by simp [hu])]
  by_cases h0 : n = 0 ∨ rows = [] ∨ (rows.headD []).length = 0
  · exact ⟨_, if_pos h0⟩
  · rw [if_neg h0]
    exact ⟨_, if_pos hn⟩

theorem maxLen_charRows_pos {titles : List Str} {t : Str} (ht : t ∈ titles) (hne : t ≠ []) : maxLen (charRows titles) ≠ 0 := by
  have hl := length_charRows titles
  cases hc : charRows titles with
  | nil =>
    rw [hc] at hl
    rw [List.eq_nil_of_length_eq_zero hl.symm] at ht
    exact absurd ht (by simp)
  | cons r rs =>
    have h1 := charRows_width (tags := titles) (r := r) (by rw [hc]; exact List.mem_cons_self) t ht
    have h2 := length_le_maxLen (l := r :: rs) (s := r) List.mem_cons_self
    have h3 := List.length_pos_iff.2 hne
    omega

theorem attributeVars_some {n : ℕ} {rows : List (List K)} {titles : List Str} (h0 : rows ≠ []) (hn : rows.length = n)
    (hw : ∀ r ∈ rows, r.length = titles.length) (hb : ∀ s ∈ titles, Bytes s) {t : Str} (ht : t ∈ titles) (hne : t ≠ []) :
    attributeVars n (some rows) titles = some (some rows, some (charRows titles)) := by
  have hu : uniform rows = true := by
    rw [uniform_iff]
    intro r hr
    cases rows with
    | nil => exact absurd hr (by simp)
    | cons a l => exact (hw r hr).trans (hw a List.mem_cons_self).symm
  have hn0 : n ≠ 0 := by
    intro h
    rw [h] at hn
    exact h0 (List.eq_nil_of_length_eq_zero hn)
  have hh : (rows.headD []).length = titles.length := by
    cases rows with
    | nil => exact absurd rfl h0
    | cons a l => exact hw a List.mem_cons_self
  have htl : titles.length ≠ 0 := by
    intro h
    rw [List.eq_nil_of_length_eq_zero h] at ht
    exact absurd ht (by simp)
  unfold attributeVars
  simp only []
  rw [if_neg (by simp [hu, ascii_of hb]), if_neg (by simp [hn, hn0]), if_neg, if_neg]
  · have hte : titles ≠ [] := fun h => htl (by rw [h]; rfl)
    have := maxLen_charRows_pos ht hne
    rw [hh]
    simp [hte, this]
  · rintro (h | h | h)
    · exact hn0 h
    · exact h0 h
    · exact htl (hh.symm.trans h)

/-- **C107.** Every mesh which fits into a NetCDF file can be written. -/
theorem C107_can_be_written {d : Dict K} (hd : Storable d) : ∃ f, writeMsh d = some f := by
  have hb : ∀ {l : List Str}, (∀ s ∈ l, s ∈ d.vertexTitles ++ d.segmentTags ++ d.outlineTags ++ d.regionTags) → ∀ s ∈ l, Bytes s :=
    fun h s hs => hd.bytes s (h s hs)
  have hva : ∃ v, attributeVars d.vertices.length d.vertexAttributes d.vertexTitles = some v := by
    cases ha : d.vertexAttributes with
    | none =>
      rw [hd.noRows ha]
      exact ⟨_, rfl⟩
    | some rows =>
      obtain ⟨h0, hn, hw, t, ht, hne⟩ := hd.rows rows ha
      exact ⟨_, attributeVars_some h0 hn hw (hb fun s hs => by simp [hs]) ht hne⟩
  obtain ⟨⟨va, vt⟩, hva⟩ := hva
  obtain ⟨nb, hnb⟩ := neighbourInts_some hd.neighbour
  obtain ⟨st, hst⟩ := tagVar_some hd.segmentTags (hb fun s hs => by simp [hs])
  obtain ⟨tags, htags, hlen, htb⟩ := hd.triangleTags
  obtain ⟨tt, htt⟩ := tagVar_some hlen htb
  obtain ⟨ot, hot⟩ := tagVar_some hd.outlineTags (hb fun s hs => by simp [hs])
  obtain ⟨rt, hrt⟩ := tagVar_some hd.regionTags (hb fun s hs => by simp [hs])
  obtain ⟨k, hk⟩ := hd.pointColumns
  obtain ⟨pa, hpa⟩ := pointVar_some hd.pointAttributes hk
  have h2 : fits2 d.segments = true ∧ fits2 d.outline = true := by
    unfold fits2
    rw [List.all_eq_true, List.all_eq_true]
    refine ⟨fun s hs => ?_, fun s hs => ?_⟩ <;>
    · have := hd.int2 s (by simp [hs])
      rw [fits_of this.1, fits_of this.2]
      rfl
  have h3 : fits3 d.triangles = true := by
    unfold fits3
    rw [List.all_eq_true]
    intro t ht
    have := hd.int3 t ht
    rw [fits_of this.1, fits_of this.2.1, fits_of this.2.2]
    rfl
  have hnl : nb.length = d.triangles.length := by
    have := congrArg List.length (neighbourInts_back hnb)
    rw [List.length_map] at this
    rw [this, hd.neighbours]
  unfold writeMsh
  have ht' : d.triangleTags.getD [] = tags := by rw [htags]; rfl
  rw [ht']
  simp only [hva, hnb, hst, htt, hot, hrt, hpa, Option.bind_eq_bind, Option.bind_some]
  rw [if_neg (by simp [h2.1, h2.2, h3]), if_neg (fun h => h.2 hnl), if_neg (fun h => h.2 hd.regionAreas)]
  exact ⟨_, rfl⟩

theorem forall₂_trim_eq : ∀ {l m : List Str}, List.Forall₂ Trim l m → (∀ s ∈ l, Trim s s) → m = l
  | _, _, .nil, _ => rfl
  | a :: l, b :: m, .cons h hl, ht => by
    rw [trim_strip h, strip_self (ht a List.mem_cons_self), forall₂_trim_eq hl fun s hs => ht s (List.mem_cons_of_mem _ hs)]

/-- **C107.** A mesh which fits into a NetCDF file and whose tags and titles have no white space at their ends is read back
from its file as it was, with its whole geo reference. -/
theorem C107_msh {d : Dict K} (hd : Storable d)
    (ht : ∀ s ∈ d.vertexTitles ++ d.triangleTags.getD [] ++ d.segmentTags ++ d.outlineTags ++ d.regionTags, Trim s s) :
    ∃ f, writeMsh d = some f ∧ readMsh f = d := by
  obtain ⟨f, hf⟩ := C107_can_be_written hd
  refine ⟨f, hf, ?_⟩
  obtain ⟨h1, h2, h3, h4, h5, h6, h7, h8, h9, h10, h11, h12, h13, h14, h15, h16, h17⟩ := C107_written_is_right hf
  obtain ⟨tags, htags, hlen, -⟩ := hd.triangleTags
  rw [htags] at ht
  obtain ⟨tags', e1, e2⟩ := h14 tags htags hlen
  have e3 : tags' = tags := forall₂_trim_eq e2 fun s hs => ht s (by simp [hs])
  have e4 := forall₂_trim_eq (h11 hd.segmentTags) fun s hs => ht s (by simp [hs])
  have e5 := forall₂_trim_eq (h12 hd.outlineTags) fun s hs => ht s (by simp [hs])
  have e6 := forall₂_trim_eq (h13 hd.regionTags) fun s hs => ht s (by simp [hs])
  have e7 := h15 hd.pointAttributes
  have e8 : (readMsh f).neighbours = d.neighbours := by
    refine h9 ?_
    by_cases hne : d.triangles = []
    · exact Or.inr (List.eq_nil_of_length_eq_zero (by rw [hd.neighbours, hne]; rfl))
    · exact Or.inl hne
  have e9 : (readMsh f).regionAreas = d.regionAreas := by
    refine h10 ?_
    by_cases hne : d.regions = []
    · exact Or.inr (List.eq_nil_of_length_eq_zero (by rw [hd.regionAreas, hne]; rfl))
    · exact Or.inl hne
  have e10 : (readMsh f).vertexAttributes = d.vertexAttributes ∧ (readMsh f).vertexTitles = d.vertexTitles := by
    have hf2 : ∀ s ∈ d.vertexTitles, Trim s s := fun s hs => ht s (by simp [hs])
    cases ha : d.vertexAttributes with
    | none =>
      rcases h16 with h | h
      · rw [h.1, h.2, hd.noRows ha]
        exact ⟨rfl, rfl⟩
      · rw [h.1, forall₂_trim_eq h.2 hf2]
        exact ⟨ha, rfl⟩
    | some rows =>
      obtain ⟨q0, qn, qw, t, qt, -⟩ := hd.rows rows ha
      have hr : (readMsh f).vertexAttributes = d.vertexAttributes := by
        refine h17 ⟨rows, ha, qn, ?_⟩
        obtain ⟨r, l, rfl⟩ := List.exists_cons_of_ne_nil q0
        refine ⟨r, List.mem_cons_self, fun h => ?_⟩
        have := qw r List.mem_cons_self
        rw [h] at this
        rw [List.eq_nil_of_length_eq_zero this.symm] at qt
        exact absurd qt (by simp)
      rcases h16 with h | h
      · rw [hr, ha] at h
        exact absurd h.1 (by simp)
      · rw [hr, forall₂_trim_eq h.2 hf2]
        exact ⟨ha, rfl⟩
  rw [e3, ← htags] at e1
  generalize readMsh f = d' at *
  cases d
  cases d'
  simp_all

/-- **C107.** A mesh which can be kept by both kinds of file is read back from both as the same mesh, except for what a text file
forgets of the geo reference. -/
theorem C107_formats_agree {c : Codec K} (hc : Faithful c) {d : Dict K} (hd : Complete d) (hs : Storable d) :
    ∃ text f d', writeTsh c d = some text ∧ writeMsh d = some f ∧ readTsh c text = some d' ∧
      d' = { readMsh f with geo := d'.geo } ∧ SameOrigin (readMsh f).geo d'.geo := by
  obtain ⟨text, d', h1, h2, h3, h4⟩ := C106_tsh hc hd
  obtain ⟨tags, q1, -, q2⟩ := hd.allTriangleTags
  obtain ⟨f, h5, h6⟩ := C107_msh hs (by
    intro s hm
    rw [q1] at hm
    simp only [List.mem_append, Option.getD_some] at hm
    rcases hm with (((hm | hm) | hm) | hm) | hm
    · exact hd.allTitles s hm
    · exact q2 s hm
    · exact hd.allSegmentTags.2 s hm
    · exact hd.allOutlineTags.2 s hm
    · exact hd.allRegionTags.2 s hm)
  refine ⟨text, f, d', h1, h5, h2, ?_, ?_⟩
  · rw [h6]
    exact h3
  · rw [h6]
    exact h4

/-- **C107.** Unlike the text form, the NetCDF form refuses segments without tags, and triangles without tags; empty texts have to
be given. -/
theorem C107_tags_needed {d : Dict K} (h : d.segments ≠ [] ∧ d.segmentTags = [] ∨
    d.triangles ≠ [] ∧ (d.triangleTags = none ∨ d.triangleTags = some []) ∨
    d.outline ≠ [] ∧ d.outlineTags = [] ∨ d.regions ≠ [] ∧ d.regionTags = []) : writeMsh d = none := by
  have key : ∀ n, n ≠ 0 → tagVar n [] = none := by
    intro n hn
    unfold tagVar
    have ha : ascii [] = true := by decide
    rw [if_pos ha, if_neg hn]
    rfl
  have hlen : ∀ {α : Type} {l : List α}, l ≠ [] → l.length ≠ 0 := fun h h0 => h (List.eq_nil_of_length_eq_zero h0)
  by_contra hne
  obtain ⟨f, hf⟩ := Option.ne_none_iff_exists'.1 hne
  unfold writeMsh at hf
  simp only [Option.bind_eq_bind, Option.bind_eq_some_iff] at hf
  obtain ⟨⟨va, vt⟩, -, nb, -, st, hst, tt, htt, ot, hot, rt, hrt, -⟩ := hf
  rcases h with ⟨h1, h2⟩ | ⟨h1, h2⟩ | ⟨h1, h2⟩ | ⟨h1, h2⟩
  · rw [h2, key _ (hlen h1)] at hst
    exact absurd hst (by simp)
  · have : d.triangleTags.getD [] = [] := by rcases h2 with h2 | h2 <;> rw [h2] <;> rfl
    rw [this, key _ (hlen h1)] at htt
    exact absurd htt (by simp)
  · rw [h2, key _ (hlen h1)] at hot
    exact absurd hot (by simp)
  · rw [h2, key _ (hlen h1)] at hrt
    exact absurd hrt (by simp)

/-- **C107.** A triangle with a neighbour given as `None` cannot be written (the text form makes it -1). -/
theorem C107_neighbours_needed {d : Dict K} (h : ∃ n ∈ d.neighbours, n.1 = none ∨ n.2.1 = none ∨ n.2.2 = none) :
    writeMsh d = none := by
  by_contra hne
  obtain ⟨f, hf⟩ := Option.ne_none_iff_exists'.1 hne
  unfold writeMsh at hf
  simp only [Option.bind_eq_bind, Option.bind_eq_some_iff] at hf
  obtain ⟨-, -, nb, hnb, -⟩ := hf
  have hb := neighbourInts_back hnb
  obtain ⟨n, hn, hnn⟩ := h
  rw [← hb, List.mem_map] at hn
  obtain ⟨t, -, rfl⟩ := hn
  simp at hnn

/-- **C107.** A character of more than one byte in a tag cannot be written. -/
theorem C107_bytes_needed {d : Dict K} (h : ∃ s ∈ d.segmentTags ++ d.outlineTags ++ d.regionTags, ¬ Bytes s) : writeMsh d = none := by
  have key : ∀ {n : ℕ} {tags : List Str} {v}, tagVar n tags = some v → ∀ s ∈ tags, Bytes s := by
    intro n tags v hv s hs
    unfold tagVar at hv
    by_cases ha : ascii tags = true
    · unfold ascii at ha
      rw [List.all_eq_true] at ha
      intro c hc
      have := ha s hs
      rw [List.all_eq_true] at this
      exact of_decide_eq_true (this c hc)
    · rw [if_neg ha] at hv
      exact absurd hv (by simp)
  by_contra hne
  obtain ⟨f, hf⟩ := Option.ne_none_iff_exists'.1 hne
  unfold writeMsh at hf
  simp only [Option.bind_eq_bind, Option.bind_eq_some_iff] at hf
  obtain ⟨-, -, nb, -, st, hst, tt, -, ot, hot, rt, hrt, -⟩ := hf
  obtain ⟨s, hs, hsb⟩ := h
  simp only [List.mem_append] at hs
  rcases hs with (hs | hs) | hs
  · exact hsb (key hst s hs)
  · exact hsb (key hot s hs)
  · exact hsb (key hrt s hs)

/-- **C107.** No number of a point which does not fit into 32 bits is written. -/
theorem C107_no_overflow {d : Dict K} {f : Nc K} (h : writeMsh d = some f) :
    (∀ t ∈ d.segments ++ d.outline, Int32 t.1 ∧ Int32 t.2) ∧ ∀ t ∈ d.triangles, Int32 t.1 ∧ Int32 t.2.1 ∧ Int32 t.2.2 := by
  have key : ∀ {i : ℤ}, fits i = true → Int32 i := by
    intro i hi
    unfold fits at hi
    rw [decide_eq_true_eq] at hi
    unfold Int32
    norm_num
    omega
  unfold writeMsh at h
  simp only [Option.bind_eq_bind, Option.bind_eq_some_iff] at h
  obtain ⟨v, -, nb, -, st, -, tt, -, ot, -, rt, -, pa, -, h⟩ := h
  by_cases h1 : (!fits2 d.segments || !fits3 d.triangles || !fits2 d.outline) = true
  · rw [if_pos h1] at h
    exact absurd h (by simp)
  simp only [Bool.or_eq_true, Bool.not_eq_true', not_or, Bool.not_eq_false] at h1
  obtain ⟨⟨h1, h2⟩, h3⟩ := h1
  unfold fits2 at h1 h3
  unfold fits3 at h2
  rw [List.all_eq_true] at h1 h2 h3
  refine ⟨fun t ht => ?_, fun t ht => ?_⟩
  · rcases List.mem_append.1 ht with ht | ht
    · have := h1 t ht
      rw [Bool.and_eq_true] at this
      exact ⟨key this.1, key this.2⟩
    · have := h3 t ht
      rw [Bool.and_eq_true] at this
      exact ⟨key this.1, key this.2⟩
  · have := h2 t ht
    rw [Bool.and_eq_true, Bool.and_eq_true] at this
    exact ⟨key this.1.1, key this.1.2, key this.2⟩

end Verif.MeshFile
