import Verif.MeshFile.Props

/-! # C106: files which are cut off, titles without columns, and meshes with their outline -/

set_option linter.unusedSectionVars false

namespace Verif.MeshFile

variable {K : Type}

/-! ## Files which are cut off -/

theorem readMany_more {α : Type} (g : Str → Option α) : ∀ (n : ℕ) (p q : List Str) (x : List α) (r : List Str),
    readMany g n p = some (x, r) → (r ≠ [] ∨ g [] = none) → readMany g n (p ++ q) = some (x, r ++ q)
  | 0, p, q, x, r, h, _ => by
    rw [readMany] at h ⊢
    have h := Option.some.inj h
    rw [Prod.mk.injEq] at h
    obtain ⟨rfl, rfl⟩ := h
    rfl
  | n + 1, p, q, x, r, h, hr => by
    rw [readMany] at h ⊢
    cases p with
    | nil =>
      exfalso
      have hl : line ([] : List Str) = [] := rfl
      rw [hl] at h
      cases hg : g [] with
      | none => rw [hg] at h; exact absurd h (by simp)
      | some y =>
        rcases hr with hr | hr
        · have hrest : ∀ (n : ℕ) (x : List α) (r : List Str), readMany g n [] = some (x, r) → r = [] := by
            intro n
            induction n with
            | zero =>
              intro x r h
              rw [readMany] at h
              exact ((Prod.mk.injEq _ _ _ _).mp (Option.some.inj h)).2.symm
            | succ n ih =>
              intro x r h
              rw [readMany, hl, hg] at h
              simp only [Option.bind_eq_bind, Option.bind_some, List.tail_nil] at h
              cases hm : readMany g n [] with
              | none => rw [hm] at h; exact absurd h (by simp)
              | some z =>
                rw [hm] at h
                have h := (Prod.mk.injEq _ _ _ _).mp (Option.some.inj h)
                rw [← h.2]
                exact ih z.1 z.2 (by rw [hm])
          refine hr (hrest (n + 1) x r ?_)
          rw [readMany, hl]
          exact h
        · rw [hr] at hg
          exact absurd hg (by simp)
    | cons a p =>
      simp only [line, List.headD_cons, List.tail_cons, List.cons_append] at h ⊢
      cases hg : g a with
      | none => rw [hg] at h; exact absurd h (by simp)
      | some y =>
        rw [hg] at h
        simp only [Option.bind_eq_bind, Option.bind_some] at h ⊢
        cases hm : readMany g n p with
        | none => rw [hm] at h; exact absurd h (by simp)
        | some z =>
          rw [hm] at h
          have h := (Prod.mk.injEq _ _ _ _).mp (Option.some.inj h)
          obtain ⟨rfl, h2⟩ := h
          rw [readMany_more g n p q z.1 z.2 (by rw [hm]) (by rw [h2]; exact hr)]
          rw [h2]
          rfl

theorem readCount_nil : readCount [] = none := rfl

theorem readTriangulation_more (c : Codec K) (p q : List Str) (t : Tri K) (r : List Str)
    (h : readTriangulation c p = some (t, r)) : readTriangulation c (p ++ q) = some (t, r ++ q) := by
  cases p with
  | nil => exact absurd h (by simp [readTriangulation, headOf, readHead, line, words, readMany, count_nat, readCount_nil])
  | cons a p =>
    unfold readTriangulation at h ⊢
    simp only [line, List.headD_cons, List.tail_cons, List.cons_append] at h ⊢
    cases h1 : headOf a with
    | none => rw [h1] at h; exact absurd h (by simp)
    | some nk =>
      obtain ⟨n, k⟩ := nk
      rw [h1] at h
      simp only [Option.bind_eq_bind, Option.bind_some] at h ⊢
      cases h2 : readMany (readVertex c) n p with
      | none => rw [h2] at h; exact absurd h (by simp)
      | some vr =>
        obtain ⟨vs, r1⟩ := vr
        rw [h2] at h
        rw [readMany_more _ n p q vs r1 h2 (.inr rfl)]
        simp only [Option.bind_some] at h ⊢
        cases h3 : count k with
        | none => rw [h3] at h; exact absurd h (by simp)
        | some k =>
          rw [h3] at h
          simp only [Option.bind_some] at h ⊢
          cases h4 : readMany (fun l => some (strip l)) k r1.tail with
          | none => rw [h4] at h; exact absurd h (by simp)
          | some tr =>
            obtain ⟨titles, r2⟩ := tr
            rw [h4] at h
            simp only [Option.bind_some] at h
            cases r2 with
            | nil => exact absurd h (by simp [readCount, words])
            | cons l2 r2 =>
              have hr1 : (r1 ++ q).tail = r1.tail ++ q := by
                cases r1 with
                | nil =>
                  exfalso
                  have hrest : ∀ (n : ℕ) (x : List Str) (r : List Str),
                      readMany (fun l => some (strip l)) n [] = some (x, r) → r = [] := by
                    intro n
                    induction n with
                    | zero =>
                      intro x r h
                      rw [readMany] at h
                      exact ((Prod.mk.injEq _ _ _ _).mp (Option.some.inj h)).2.symm
                    | succ n ih =>
                      intro x r h
                      rw [readMany] at h
                      simp only [Option.bind_eq_bind, Option.bind_some, List.tail_nil] at h
                      cases hm : readMany (fun l => some (strip l)) n [] with
                      | none => rw [hm] at h; exact absurd h (by simp)
                      | some z =>
                        rw [hm] at h
                        have h := (Prod.mk.injEq _ _ _ _).mp (Option.some.inj h)
                        rw [← h.2]
                        exact ih z.1 z.2 (by rw [hm])
                  exact absurd (hrest _ _ _ h4) (by simp)
                | cons b r1 => rfl
              rw [hr1, readMany_more _ k r1.tail q titles (l2 :: r2) h4 (.inl (by simp))]
              simp only [Option.bind_some, List.headD_cons, List.tail_cons, List.cons_append] at h ⊢
              cases h5 : readCount l2 with
              | none => rw [h5] at h; exact absurd h (by simp)
              | some n2 =>
                rw [h5] at h
                simp only [Option.bind_some] at h ⊢
                cases h6 : readMany readTriangle n2 r2 with
                | none => rw [h6] at h; exact absurd h (by simp)
                | some tr =>
                  obtain ⟨ts, r3⟩ := tr
                  rw [h6] at h
                  rw [readMany_more _ n2 r2 q ts r3 h6 (.inr rfl)]
                  simp only [Option.bind_some] at h ⊢
                  cases r3 with
                  | nil => exact absurd h (by simp [readCount, words])
                  | cons l3 r3 =>
                    simp only [List.headD_cons, List.tail_cons, List.cons_append] at h ⊢
                    cases h7 : readCount l3 with
                    | none => rw [h7] at h; exact absurd h (by simp)
                    | some n3 =>
                      rw [h7] at h
                      simp only [Option.bind_some] at h ⊢
                      cases h8 : readMany readSegment n3 r3 with
                      | none => rw [h8] at h; exact absurd h (by simp)
                      | some sr =>
                        obtain ⟨ss, r4⟩ := sr
                        rw [h8] at h
                        rw [readMany_more _ n3 r3 q ss r4 h8 (.inr rfl)]
                        simp only [Option.bind_some] at h ⊢
                        have h := (Prod.mk.injEq _ _ _ _).mp (Option.some.inj h)
                        rw [h.1, h.2]
                        rfl

/-- **C106.** A file which lacks lines of the triangulation at its end is refused: the mesh is never read with some triangles,
tags or segments missing. -/
theorem C106_cut_off {c : Codec K} (hc : Faithful c) {d : Dict K} (hd : Writable d) (L : List Str)
    (hL : writeTriangulation c d = some L) (k : ℕ) (hk : k < L.length) :
    readTsh c ((L.take k).flatMap fun l => l ++ ['\n']) = none := by
  obtain ⟨L', hL', hl, hr⟩ := triangulation_back hc hd
  obtain rfl : L' = L := Option.some.inj (hL'.symm.trans hL)
  unfold readTsh
  rw [lines_text _ fun l h => hl l (List.mem_of_mem_take h)]
  unfold readLines
  cases h : readTriangulation c (L'.take k) with
  | none => rfl
  | some tr =>
    obtain ⟨t, r⟩ := tr
    have h1 := readTriangulation_more c _ (L'.drop k) t r h
    rw [List.take_append_drop] at h1
    have h2 := hr []
    rw [List.append_nil, h1] at h2
    have h3 := (Prod.mk.injEq _ _ _ _).mp (Option.some.inj h2)
    have h4 : L'.drop k = [] := (List.append_eq_nil_iff.1 h3.2).2
    rw [List.drop_eq_nil_iff] at h4
    omega

/-- **C106.** A file which ends after the triangulation is read without complaint: the triangulation is the same, the outline,
holes, regions and the geo reference are empty. -/
theorem C106_no_outline {c : Codec K} (hc : Faithful c) {d : Dict K} (hd : Writable d) (L : List Str)
    (hL : writeTriangulation c d = some L) :
    ∃ d' text e, readTsh c (L.flatMap fun l => l ++ ['\n']) = some d' ∧ writeTsh c d = some text ∧ readTsh c text = some e ∧
      d' = { e with points := [], pointAttributes := [], outline := [], outlineTags := [], holes := [], regions := [],
                    regionTags := [], regionAreas := [], geo := none } := by
  obtain ⟨L', hL', hl, hr⟩ := triangulation_back hc hd
  obtain rfl : L' = L := Option.some.inj (hL'.symm.trans hL)
  obtain ⟨text, h1, h2⟩ := tsh_back hc hd
  have h3 := hr []
  rw [List.append_nil] at h3
  refine ⟨merge (backTri d) ⟨[], [], [], [], [], [], [], [], none⟩, text, back d, ?_, h1, h2, rfl⟩
  unfold readTsh
  rw [lines_text _ hl]
  unfold readLines
  rw [h3]
  rfl

/-! ## Titles without columns -/

theorem words_mem : ∀ (s : Str) (w : Str), w ∈ words s → w ≠ [] ∧ ∀ c ∈ w, c ∈ s
  | [], w, h => absurd h (by simp [words])
  | x :: s, w, h => by
    rw [words] at h
    by_cases h1 : isSpace x = true
    · rw [if_pos h1] at h
      obtain ⟨h2, h3⟩ := words_mem s w h
      exact ⟨h2, fun c hc => List.mem_cons_of_mem _ (h3 c hc)⟩
    · rw [if_neg h1] at h
      by_cases h2 : s.head?.all isSpace = true
      · rw [if_pos h2] at h
        rcases List.mem_cons.1 h with rfl | h
        · exact ⟨by simp, fun c hc => by simp at hc; simp [hc]⟩
        · obtain ⟨h2, h3⟩ := words_mem s w h
          exact ⟨h2, fun c hc => List.mem_cons_of_mem _ (h3 c hc)⟩
      · rw [if_neg h2] at h
        cases hw : words s with
        | nil =>
          rw [hw] at h
          have : w = [x] := by simpa [glue] using h
          subst this
          exact ⟨by simp, fun c hc => by simp at hc; simp [hc]⟩
        | cons v vs =>
          rw [hw] at h
          rcases List.mem_cons.1 h with rfl | h
          · refine ⟨by simp, fun c hc => ?_⟩
            rcases List.mem_cons.1 hc with rfl | hc
            · simp
            · exact List.mem_cons_of_mem _ ((words_mem s v (by rw [hw]; simp)).2 c hc)
          · obtain ⟨h2, h3⟩ := words_mem s w (by rw [hw]; simp [h])
            exact ⟨h2, fun c hc => List.mem_cons_of_mem _ (h3 c hc)⟩

theorem readNat_letters {s : Str} (h : ∀ c ∈ s, c.isDigit = false) : readNat s = none := by
  unfold readNat
  rw [if_neg]
  rintro ⟨h1, h2⟩
  rw [List.all_eq_true] at h2
  cases s with
  | nil => exact h1 rfl
  | cons c s =>
    have := h2 c (by simp)
    rw [h c (by simp)] at this
    exact absurd this (by simp)

theorem readCount_letters {s : Str} (h : ∀ c ∈ s, c.isDigit = false) : readCount s = none := by
  unfold readCount
  cases hw : words s with
  | nil => rfl
  | cons w ws =>
    have hm := (words_mem s w (by rw [hw]; simp)).2
    have h1 : readInt w = none := by
      unfold readInt
      by_cases hh : w.head? = some '-'
      · rw [if_pos hh, readNat_letters fun c hc => h c (hm c (List.mem_of_mem_tail hc))]
        rfl
      · rw [if_neg hh, readNat_letters fun c hc => h c (hm c hc)]
        rfl
    show count w = none
    unfold count
    rw [h1]
    rfl

/-- **C106.** Titles of columns although there are no columns make a file which cannot be read. -/
theorem C106_titles_without_columns {c : Codec K} (hc : Faithful c) {d : Dict K} (title : Str) (titles : List Str)
    (hw : Writable { d with vertexTitles := [] }) (ht : d.vertexTitles = title :: titles)
    (hl : ∀ s ∈ title :: titles, OneLine s) (hdig : ∀ ch ∈ title, ch.isDigit = false) :
    ∃ text, writeTsh c d = some text ∧ readTsh c text = none := by
  have h0 : attributeCount d.vertices.length d.vertexAttributes = 0 := by
    have h1 := hw.titles
    have h2 := columns_eq { d with vertexTitles := [] }
    rw [← h1] at h2
    exact h2.symm
  obtain ⟨T, hT, hTl, -⟩ := triangulation_back hc hw
  obtain ⟨O, hO, hOl, -⟩ := outline_back hc hw
  have hrows := attributeRows_length (a := d.vertexAttributes) (n := d.vertices.length) hw.rows
  obtain ⟨V, hV, -, hVr⟩ := numbered_read (vertexLine c) (readVertex c) (fun p a => (p, a)) (readVertex_line hc) 0
    d.vertices _ hrows
  have hO' : writeOutline c d = some O := hO
  unfold writeTriangulation at hT
  simp only at hT
  rw [hV] at hT
  simp only [Option.bind_eq_bind, Option.bind_some] at hT
  cases hTs : numbered (fun i t (r : (Option ℤ × Option ℤ × Option ℤ) × Str) => triangleLine i t r.1 r.2) 0 d.triangles
    ((neighbourRows d.triangles.length d.neighbours).zip (triangleTagRows d.triangles.length d.triangleTags)) with
  | none => rw [hTs] at hT; exact absurd hT (by simp)
  | some ts =>
    rw [hTs] at hT
    simp only [Option.bind_some] at hT
    cases hSs : numbered (fun i (s : ℤ × ℤ) tag => taggedLine i (showInt s.1) (showInt s.2) tag) 0 d.segments d.segmentTags with
    | none => rw [hSs] at hT; exact absurd hT (by simp)
    | some ss =>
      rw [hSs] at hT
      have hT := (Option.some.inj hT).symm
      subst hT
      have hwT : ∃ L, writeTriangulation c d = some L := by
        unfold writeTriangulation
        rw [hV, hTs, hSs]
        exact ⟨_, rfl⟩
      obtain ⟨L, hL⟩ := hwT
      have hLe := hL
      unfold writeTriangulation at hLe
      rw [hV, hTs, hSs] at hLe
      have hLe := (Option.some.inj hLe).symm
      subst hLe
      refine ⟨_, by unfold writeTsh; rw [hL, hO']; rfl, ?_⟩
      unfold readTsh
      rw [lines_text]
      · unfold readLines
        have hn : readTriangulation c ((vertexHead d.vertices.length (attributeCount d.vertices.length d.vertexAttributes)
            "# <# of verts> <# of vert attributes>, next lines <vertex #> <x> <y> [attributes] ...Triangulation Vertices..." :: V
          ++ "# attribute column titles ...Triangulation Vertex Titles...".toList :: d.vertexTitles
          ++ countHead d.triangles.length "# <# of triangles>, next lines <triangle #> [<vertex #>] [<neigbouring triangle #>] [attribute of region] ...Triangulation Triangles..." :: ts
          ++ countHead d.segments.length "# <# of segments>, next lines <segment #> <vertex #>  <vertex #> [boundary tag] ...Triangulation Segments..." :: ss) ++ O)
          = none := by
          rw [ht, h0]
          simp only [List.append_assoc, List.cons_append]
          unfold readTriangulation
          simp only [line, List.headD_cons, List.tail_cons]
          rw [headOf_line]
          simp only [Option.bind_eq_bind, Option.bind_some]
          rw [hVr]
          simp only [Option.bind_some, List.tail_cons]
          rw [count_nat]
          simp only [Option.bind_some, readMany, List.headD_cons]
          rw [readCount_letters hdig]
          rfl
        rw [hn]
        rfl
      · intro l hm
        rcases List.mem_append.1 hm with hm | hm
        · simp only [List.mem_append, List.mem_cons] at hm hTl
          rcases hm with (((hm | hm) | (hm | hm)) | (hm | hm)) | (hm | hm)
          · exact hTl l (by tauto)
          · exact hTl l (by tauto)
          · exact hTl l (by tauto)
          · rw [ht] at hm
            exact hl l hm
          · exact hTl l (by tauto)
          · exact hTl l (by tauto)
          · exact hTl l (by tauto)
          · exact hTl l (by tauto)
        · exact hOl l hm

/-! ## Meshes with their outline -/

variable [Ring K] [LinearOrder K] [IsStrictOrderedRing K]

/-- A mesh that can be saved: the triangulation has all its lists, segments of the outline join two of its points, titles
and tags are trimmed texts on one line. -/
structure Sound (m : Whole K) : Prop where
  rows : m.tri.vertexAttributes = [] ∨ m.tri.vertexAttributes.length = m.tri.vertices.length
  titles : m.tri.vertexTitles.length = (if m.tri.vertices = [] then 0 else (m.tri.vertexAttributes.headD []).length)
  tags : m.tri.triangleTags.length = m.tri.triangles.length
  neighbours : m.tri.neighbours.length = m.tri.triangles.length
  segs : m.tri.segmentTags.length = m.tri.segments.length
  ends : ∀ s ∈ m.user.segments, s.1.1 < m.user.points.length ∧ s.1.2 < m.user.points.length ∧ s.1.1 ≠ s.1.2
  lines : ∀ s, s ∈ m.tri.vertexTitles ∨ s ∈ m.tri.triangleTags ∨ s ∈ m.tri.segmentTags ∨ s ∈ m.user.segments.map (·.2) ∨
    s ∈ m.user.regions.map (·.2.1) → OneLine s ∧ Trim s s

theorem Sound.writable {m : Whole K} (hm : Sound m) : Writable (toDict m) where
  rows := by
    intro rows h hne
    obtain rfl : m.tri.vertexAttributes = rows := Option.some.inj h
    rcases hm.rows with h | h
    · exact absurd h hne
    · exact h.symm.le
  titles := by
    show m.tri.vertexTitles.length = _
    rw [hm.titles, columns_eq]
    show _ = (if m.tri.vertices.length = 0 then 0 else _)
    by_cases h : m.tri.vertices = []
    · rw [if_pos h, if_pos (by rw [h]; rfl)]
    · rw [if_neg h, if_neg (by simpa using h)]
  triangleTags := by
    intro tags h _
    obtain rfl : m.tri.triangleTags = tags := Option.some.inj h
    exact hm.tags.symm.le
  neighbours := by
    intro _
    show _ ≤ (m.tri.neighbours.map _).length
    rw [List.length_map]
    exact hm.neighbours.symm.le
  segmentTags := hm.segs.symm.le
  pointAttributes := by
    show _ ≤ (m.user.points.map _).length
    rw [List.length_map]
    exact le_rfl
  outlineTags := by
    show (m.user.segments.map _).length ≤ (m.user.segments.map _).length
    rw [List.length_map, List.length_map]
  regionTags := by
    show (m.user.regions.map _).length ≤ (m.user.regions.map _).length
    rw [List.length_map, List.length_map]
  regionAreas := by
    show (m.user.regions.map _).length ≤ (m.user.regions.map _).length
    rw [List.length_map, List.length_map]
  lineTitles := fun s hs => (hm.lines s (.inl hs)).1
  lineTriangles := by
    intro tags h s hs
    obtain rfl : m.tri.triangleTags = tags := Option.some.inj h
    exact (hm.lines s (.inr (.inl hs))).1
  lineSegments := fun s hs => (hm.lines s (.inr (.inr (.inl hs)))).1
  lineOutline := fun s hs => (hm.lines s (.inr (.inr (.inr (.inl hs))))).1
  lineRegions := fun s hs => (hm.lines s (.inr (.inr (.inr (.inr hs))))).1

theorem mapM_zip_some {α β γ : Type} (f : α → Option γ) (x : β → α) (y : β → γ) (h : ∀ b, f (x b) = some (y b)) :
    ∀ l : List β, (l.map x).mapM f = some (l.map y)
  | [] => rfl
  | b :: l => by
    rw [List.map_cons, List.mapM_cons, h, mapM_zip_some f x y h l]
    rfl

/-- **C106.** A mesh saved to a file and loaded from it has the same outline: the same points, segments and tags, holes and
regions with their tags; a greatest area comes back if it is positive, and as no limit otherwise. -/
theorem C106_mesh {c : Codec K} (hc : Faithful c) {m : Whole K} (hm : Sound m) :
    ∃ text d u, writeTsh c (toDict m) = some text ∧ readTsh c text = some d ∧ toUser d = some u ∧
      u.points = m.user.points ∧ u.segments = m.user.segments ∧ u.holes = m.user.holes ∧
      u.regions = m.user.regions.map (fun r => (r.1, r.2.1, r.2.2.filter fun a => decide (0 < a))) ∧
      d.vertices = m.tri.vertices ∧ d.triangles = m.tri.triangles ∧ d.triangleTags = some m.tri.triangleTags ∧
      d.segments = m.tri.segments ∧ d.segmentTags = m.tri.segmentTags ∧ d.vertexTitles = m.tri.vertexTitles ∧
      d.neighbours = m.tri.neighbours.map (fun n => (some n.1, some n.2.1, some n.2.2)) ∧ SameOrigin (some m.geo) d.geo := by
  obtain ⟨text, h1, h2⟩ := tsh_back hc hm.writable
  have e1 : (toDict m).outlineTags.take (toDict m).outline.length = m.user.segments.map (·.2) := by
    show (m.user.segments.map (·.2)).take (m.user.segments.map _).length = _
    rw [List.length_map, ← List.length_map (f := fun s : (ℕ × ℕ) × Str => s.2), List.take_length]
  have e2 : (toDict m).regionTags.take (toDict m).regions.length = m.user.regions.map (·.2.1) := by
    show (m.user.regions.map (·.2.1)).take (m.user.regions.map _).length = _
    rw [List.length_map, ← List.length_map (f := fun s : (K × K) × Str × Option K => s.2.1), List.take_length]
  have e3 : (toDict m).regionAreas.take (toDict m).regions.length
      = m.user.regions.map fun r => some (r.2.2.getD (-999)) := by
    show (m.user.regions.map _).take (m.user.regions.map _).length = _
    rw [List.length_map, ← List.length_map (f := fun r : (K × K) × Str × Option K => some (r.2.2.getD (-999))),
      List.take_length]
  have o1 : (back (toDict m)).outlineTags = m.user.segments.map (·.2) := by
    show ((toDict m).outlineTags.take (toDict m).outline.length).map strip = _
    rw [e1, map_strip_self fun s hs => (hm.lines s (.inr (.inr (.inr (.inl hs))))).2]
  have o2 : (back (toDict m)).regionTags = m.user.regions.map (·.2.1) := by
    show ((toDict m).regionTags.take (toDict m).regions.length).map strip = _
    rw [e2, map_strip_self fun s hs => (hm.lines s (.inr (.inr (.inr (.inr hs))))).2]
  have o3 : (back (toDict m)).regionAreas = m.user.regions.map fun r => some (r.2.2.getD (-999)) := e3
  have o4 : (back (toDict m)).outline = m.user.segments.map fun s => ((s.1.1 : ℤ), (s.1.2 : ℤ)) := rfl
  have o5 : (back (toDict m)).regions = m.user.regions.map (·.1) := rfl
  have o6 : (back (toDict m)).points = m.user.points := rfl
  have hseg : ((back (toDict m)).outline.zip (back (toDict m)).outlineTags).mapM
      (fun s => toSegment (back (toDict m)).points.length s.1 s.2) = some m.user.segments := by
    rw [o1, o4, o6, List.zip_map']
    have := hm.ends
    generalize hS : m.user.segments = S at this
    clear hS
    induction S with
    | nil => rfl
    | cons s S ih =>
      obtain ⟨h3, h4, h5⟩ := this s (by simp)
      have hs : toSegment m.user.points.length ((s.1.1 : ℤ), (s.1.2 : ℤ)) s.2 = some s := by
        unfold toSegment
        rw [if_pos ⟨by simp, by simpa using h3, by simp, by simpa using h4, by simpa using h5⟩]
        rfl
      rw [List.map_cons, List.mapM_cons]
      simp only
      rw [hs, ih fun x hx => this x (by simp [hx])]
      rfl
  have hreg : ((back (toDict m)).regions.zip ((back (toDict m)).regionTags.zip (back (toDict m)).regionAreas)).mapM
      (fun r => toRegion r.1 r.2.1 r.2.2)
      = some (m.user.regions.map fun r => (r.1, r.2.1, r.2.2.filter fun a => decide (0 < a))) := by
    rw [o2, o3, o5, List.zip_map', List.zip_map']
    refine mapM_zip_some _ _ _ ?_ _
    rintro ⟨p, tag, a⟩
    show some _ = some _
    cases a with
    | none =>
      show some (p, tag, if (0 : K) < -999 then some (-999) else none) = _
      rw [if_neg (by
        have : (0 : K) ≤ 999 := Nat.cast_nonneg' 999 |>.trans (by norm_num)
        exact not_lt.2 (neg_nonpos.2 this))]
      rfl
    | some a =>
      show some (p, tag, if 0 < a then some a else none) = some (p, tag, if decide (0 < a) = true then some a else none)
      by_cases ha : 0 < a
      · rw [if_pos ha, if_pos (by simpa using ha)]
      · rw [if_neg ha, if_neg (by simpa using ha)]
  refine ⟨text, back (toDict m), ⟨m.user.points, m.user.segments, m.user.holes,
    m.user.regions.map fun r => (r.1, r.2.1, r.2.2.filter fun a => decide (0 < a))⟩, h1, h2, ?_, rfl, rfl, rfl, rfl, rfl, rfl,
    ?_, rfl, ?_, ?_, ?_, sameOrigin_back (some m.geo)⟩
  · unfold toUser
    rw [hseg, hreg]
    rfl
  · have hlen := hm.tags
    show some (((triangleTagRows m.tri.triangles.length (some m.tri.triangleTags)).take m.tri.triangles.length).map strip) = _
    have hs : ∀ s ∈ m.tri.triangleTags, Trim s s := fun s hs => (hm.lines s (.inr (.inl hs))).2
    cases ht : m.tri.triangleTags with
    | nil =>
      rw [ht] at hlen
      have h0 : m.tri.triangles.length = 0 := hlen.symm
      simp [h0]
    | cons t ts =>
      rw [ht] at hlen hs
      show some (((t :: ts).take _).map strip) = _
      rw [← hlen, List.take_length, map_strip_self hs]
  · show (m.tri.segmentTags.take m.tri.segments.length).map strip = _
    rw [← hm.segs, List.take_length, map_strip_self fun s hs => (hm.lines s (.inr (.inr (.inl hs)))).2]
  · exact map_strip_self fun s hs => (hm.lines s (.inl hs)).2
  · have hlen := hm.neighbours
    show (((neighbourRows m.tri.triangles.length (m.tri.neighbours.map _)).take m.tri.triangles.length).map _).map _ = _
    cases hn : m.tri.neighbours with
    | nil =>
      rw [hn] at hlen
      have h0 : m.tri.triangles.length = 0 := hlen.symm
      simp [h0]
    | cons t ts =>
      rw [hn] at hlen
      have e : neighbourRows m.tri.triangles.length ((t :: ts).map fun n => (some n.1, some n.2.1, some n.2.2))
          = (t :: ts).map fun n => (some n.1, some n.2.1, some n.2.2) := rfl
      rw [e, ← hlen, ← List.length_map (f := fun n : ℤ × ℤ × ℤ => (some n.1, some n.2.1, some n.2.2)) (as := t :: ts), List.take_length,
        List.map_map, List.map_map]
      rfl

/-- **C106.** A region without a number for its greatest area can be written and read, but not made into a mesh. -/
theorem C106_area_none {d : Dict K} (i : ℕ) (hi : i < d.regions.length) (ht : d.regionTags.length = d.regions.length)
    (ha : d.regionAreas[i]? = some none) : toUser d = none := by
  have hz : ∃ r, r ∈ d.regions.zip (d.regionTags.zip d.regionAreas) ∧ r.2.2 = none := by
    obtain ⟨hl, he⟩ := List.getElem?_eq_some_iff.1 ha
    have hlen : i < (d.regions.zip (d.regionTags.zip d.regionAreas)).length := by
      simp only [List.length_zip]
      omega
    refine ⟨_, List.getElem_mem hlen, ?_⟩
    simpa using he
  unfold toUser
  have hm : (d.regions.zip (d.regionTags.zip d.regionAreas)).mapM (fun r => toRegion r.1 r.2.1 r.2.2) = none := by
    obtain ⟨r, hr, hn⟩ := hz
    generalize d.regions.zip (d.regionTags.zip d.regionAreas) = Z at hr
    induction Z with
    | nil => exact absurd hr (by simp)
    | cons z Z ih =>
      rw [List.mapM_cons]
      rcases List.mem_cons.1 hr with rfl | hr
      · rw [hn]
        rfl
      · rw [ih hr]
        cases toRegion z.1 z.2.1 z.2.2 <;> rfl
  rw [hm]
  cases List.mapM (fun s => toSegment d.points.length s.1 s.2) (d.outline.zip d.outlineTags) <;> rfl

end Verif.MeshFile
