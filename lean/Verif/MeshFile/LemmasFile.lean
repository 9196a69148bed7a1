import Verif.MeshFile.Lemmas

/-! # Reading what was written -/

set_option linter.unusedSectionVars false

namespace Verif.MeshFile

variable {K : Type}

/-! ## Lines -/

theorem readVertex_line {c : Codec K} (hc : Faithful c) (i : ℕ) (p : K × K) (atts : List K) :
    readVertex c (vertexLine c i p atts) = some (p, atts) := by
  have hm : ∀ l : List K, (l.map c.show').mapM c.read = some l := by
    intro l
    induction l with
    | nil => rfl
    | cons a l ih =>
      rw [List.map_cons, List.mapM_cons, hc.back, ih]
      rfl
  unfold readVertex vertexLine
  rw [words_cons (word_nat i), words_cons (hc.word p.1), words_cons (hc.word p.2), words_list _ hc.word]
  simp only
  rw [hc.back, hc.back, hm]
  rfl

theorem readSegment_line (i : ℕ) (a b : ℤ) (tag : Str) :
    readSegment (taggedLine i (showInt a) (showInt b) tag) = some ((a, b), strip tag) := by
  unfold readSegment taggedLine
  rw [words_cons (word_nat i), words_cons (word_int a), words_cons (word_int b)]
  simp only
  rw [readInt_show, readInt_show, tagOf_line (word_nat i) (word_int a) (word_int b)]
  rfl

theorem readPlace_line {c : Codec K} (hc : Faithful c) (i : ℕ) (p : K × K) (tag : Str) :
    readPlace c (taggedLine i (c.show' p.1) (c.show' p.2) tag) = some (p, strip tag) := by
  unfold readPlace taggedLine
  rw [words_cons (word_nat i), words_cons (hc.word _), words_cons (hc.word _)]
  simp only
  rw [hc.back, hc.back, tagOf_line (word_nat i) (hc.word _) (hc.word _)]
  rfl

/-- The line of a hole. -/
theorem readPlace_hole {c : Codec K} (hc : Faithful c) (i : ℕ) (p : K × K) :
    (readPlace c (showNat i ++ ' ' :: (c.show' p.1 ++ ' ' :: c.show' p.2))).map (·.1) = some p := by
  unfold readPlace
  rw [words_cons (word_nat i), words_cons (hc.word _), words_word (hc.word _)]
  simp only
  rw [hc.back, hc.back]
  rfl

theorem word_neighbour (n : Option ℤ) : Word (showNeighbour n) := by
  cases n with
  | none => exact word_int (-1)
  | some j => exact word_int j

theorem readInt_neighbour (n : Option ℤ) : readInt (showNeighbour n) = some (n.getD (-1)) := by
  cases n with
  | none => exact readInt_show (-1)
  | some j => exact readInt_show j

theorem readTriangle_line (i : ℕ) (t : ℤ × ℤ × ℤ) (nb : Option ℤ × Option ℤ × Option ℤ) (tag : Str) :
    readTriangle (triangleLine i t nb tag)
      = some (t, (nb.1.getD (-1), nb.2.1.getD (-1), nb.2.2.getD (-1)), strip tag) := by
  obtain ⟨a, b, e⟩ := t
  obtain ⟨p, q, r⟩ := nb
  unfold readTriangle triangleLine
  simp only
  rw [cutN_step (word_nat i) (word_int a), cutN_step (word_int a) (word_int b), cutN_step (word_int b) (word_int e),
    cutN_step (word_int e) (word_neighbour p), cutN_step (word_neighbour p) (word_neighbour q),
    cutN_step (word_neighbour q) (word_neighbour r), cutN_last (word_neighbour r), lstrip_blank, strip_lstrip]
  rw [words_cons (word_nat i), words_cons (word_int a), words_cons (word_int b), words_cons (word_int e),
    words_cons (word_neighbour p), words_cons (word_neighbour q), words_cons (word_neighbour r)]
  simp only
  rw [readInt_show, readInt_show, readInt_show, readInt_neighbour, readInt_neighbour, readInt_neighbour]
  rfl

theorem word_none : Word "None".toList := by
  refine ⟨by decide, ?_⟩
  intro c hc
  have hn : ∀ c ∈ "None".toList, isSpace c = false := by decide
  intro hw
  have := hn c hc
  rw [(isSpace_iff c).2 hw] at this
  exact absurd this (by simp)

theorem readArea_line {c : Codec K} (hc : Faithful c) (i : ℕ) (a : Option K) :
    readArea c (showNat i ++ ' ' :: showArea c a) = a := by
  unfold readArea
  rw [words_cons (word_nat i)]
  cases a with
  | none =>
    simp only [showArea]
    rw [words_word word_none]
    exact hc.none
  | some a =>
    simp only [showArea]
    rw [words_word (hc.word a)]
    exact hc.back a

theorem headOf_line (n k : ℕ) (text : String) : headOf (vertexHead n k text) = some (n, showNat k) := by
  unfold headOf readHead vertexHead
  rw [words_cons (word_nat n), words_cons (word_nat k)]
  simp only
  rw [count_nat]
  rfl

theorem readCount_line (n : ℕ) (text : String) : readCount (countHead n text) = some n := by
  unfold readCount countHead
  rw [words_cons (word_nat n)]
  exact count_nat n

theorem readCount0_line (n : ℕ) (text : String) : readCount0 (countHead n text) = some n := by
  unfold readCount0 countHead
  rw [words_cons (word_nat n)]
  exact count_nat n

/-! ## Sections -/

theorem numbered_read {α β γ : Type} (f : ℕ → α → β → Str) (g : Str → Option γ) (h : α → β → γ)
    (hg : ∀ i x y, g (f i x y) = some (h x y)) :
    ∀ (i : ℕ) (xs : List α) (ys : List β), xs.length ≤ ys.length → ∃ L, numbered f i xs ys = some L ∧
      L.length = xs.length ∧ ∀ rest, readMany g xs.length (L ++ rest) = some (List.zipWith h xs ys, rest)
  | _, [], _, _ => ⟨[], rfl, rfl, fun _ => rfl⟩
  | _, _ :: _, [], hl => absurd hl (by simp)
  | i, x :: xs, y :: ys, hl => by
    obtain ⟨L, hL, hn, hr⟩ := numbered_read f g h hg (i + 1) xs ys (by simpa using hl)
    refine ⟨f i x y :: L, ?_, by simp [hn], ?_⟩
    · rw [numbered, hL]
      rfl
    · intro rest
      rw [List.length_cons, readMany, List.cons_append]
      simp only [line, List.headD_cons, List.tail_cons]
      rw [hg, hr]
      rfl

theorem numbered_line {α β : Type} (f : ℕ → α → β → Str) :
    ∀ (i : ℕ) (xs : List α) (ys : List β) (L : List Str), numbered f i xs ys = some L →
      (∀ i x y, y ∈ ys → OneLine (f i x y)) → ∀ l ∈ L, OneLine l
  | _, [], _, L, h, _ => by
    have : L = [] := by
      have : some ([] : List Str) = some L := h
      exact (Option.some.inj this).symm
    subst this
    simp
  | _, _ :: _, [], _, h, _ => absurd h (by simp [numbered])
  | i, x :: xs, y :: ys, L, h, hf => by
    rw [numbered] at h
    cases hL : numbered f (i + 1) xs ys with
    | none => rw [hL] at h; exact absurd h (by simp)
    | some L' =>
      rw [hL] at h
      have : L = f i x y :: L' := (Option.some.inj h).symm
      subst this
      intro l hl
      rcases List.mem_cons.1 hl with rfl | hl
      · exact hf i x y (by simp)
      · exact numbered_line f (i + 1) xs ys L' hL (fun i x y hy => hf i x y (by simp [hy])) l hl

/-- A section which is read line by line without numbers. -/
theorem readMany_map {α γ : Type} (g : Str → Option γ) (f : α → Str) (h : α → γ) (hg : ∀ x, g (f x) = some (h x)) :
    ∀ (xs : List α) (rest : List Str), readMany g xs.length (xs.map f ++ rest) = some (xs.map h, rest)
  | [], _ => rfl
  | x :: xs, rest => by
    rw [List.length_cons, readMany, List.map_cons, List.cons_append]
    simp only [line, List.headD_cons, List.tail_cons]
    rw [hg, readMany_map g f h hg xs rest]
    rfl

/-! ## Lists side by side -/

theorem zipWith_fst {α β γ δ : Type} (h : α → β → γ) (p : γ → δ) (q : α → δ) (hp : ∀ x y, p (h x y) = q x) :
    ∀ (xs : List α) (ys : List β), xs.length ≤ ys.length → (List.zipWith h xs ys).map p = xs.map q
  | [], _, _ => rfl
  | _ :: _, [], hl => absurd hl (by simp)
  | x :: xs, y :: ys, hl => by
    rw [List.zipWith_cons_cons, List.map_cons, List.map_cons, hp, zipWith_fst h p q hp xs ys (by simpa using hl)]

theorem zipWith_snd {α β γ δ : Type} (h : α → β → γ) (p : γ → δ) (q : β → δ) (hp : ∀ x y, p (h x y) = q y) :
    ∀ (xs : List α) (ys : List β), xs.length ≤ ys.length →
      (List.zipWith h xs ys).map p = (ys.take xs.length).map q
  | [], _, _ => by simp
  | _ :: _, [], hl => absurd hl (by simp)
  | x :: xs, y :: ys, hl => by
    rw [List.zipWith_cons_cons, List.map_cons, List.length_cons, List.take_succ_cons, List.map_cons, hp,
      zipWith_snd h p q hp xs ys (by simpa using hl)]

theorem attributeRows_length {n : ℕ} {a : Option (List (List K))} (h : ∀ rows, a = some rows → rows ≠ [] → n ≤ rows.length) :
    n ≤ (attributeRows n a).length := by
  match a with
  | none => simp [attributeRows]
  | some [] => simp [attributeRows]
  | some (r :: rows) => exact h (r :: rows) rfl (by simp)

theorem triangleTagRows_length {n : ℕ} {a : Option (List Str)} (h : ∀ rows, a = some rows → rows ≠ [] → n ≤ rows.length) :
    n ≤ (triangleTagRows n a).length := by
  match a with
  | none => simp [triangleTagRows]
  | some [] => simp [triangleTagRows]
  | some (r :: rows) => exact h (r :: rows) rfl (by simp)

theorem neighbourRows_length {n : ℕ} {a : List (Option ℤ × Option ℤ × Option ℤ)} (h : a ≠ [] → n ≤ a.length) :
    n ≤ (neighbourRows n a).length := by
  match a with
  | [] => simp [neighbourRows]
  | r :: rows => exact h (by simp)

theorem columns_eq (d : Dict K) : columns d = attributeCount d.vertices.length d.vertexAttributes := by
  unfold columns attributeCount
  cases d.vertices with
  | nil => cases d.vertexAttributes <;> rfl
  | cons v vs =>
    cases d.vertexAttributes with
    | none => rfl
    | some rows => cases rows <;> rfl

/-! ## The parts of a file -/

/-- What is read back of the triangulation. -/
def backTri (d : Dict K) : Tri K where
  vertices := d.vertices
  vertexAttributes := keptRows ((attributeRows d.vertices.length d.vertexAttributes).take d.vertices.length)
  vertexTitles := d.vertexTitles.map strip
  triangles := d.triangles
  triangleTags := ((triangleTagRows d.triangles.length d.triangleTags).take d.triangles.length).map strip
  neighbours := ((neighbourRows d.triangles.length d.neighbours).take d.triangles.length).map
    fun n => (n.1.getD (-1), n.2.1.getD (-1), n.2.2.getD (-1))
  segments := d.segments
  segmentTags := (d.segmentTags.take d.segments.length).map strip

/-- What is read back of the outline. -/
def backOutline (d : Dict K) : Outline K where
  points := d.points
  pointAttributes := d.pointAttributes.take d.points.length
  outline := d.outline
  outlineTags := (d.outlineTags.take d.outline.length).map strip
  holes := d.holes
  regions := d.regions
  regionTags := (d.regionTags.take d.regions.length).map strip
  regionAreas := d.regionAreas.take d.regions.length
  geo := d.geo.map fun r => Ref.plain r.zone r.xll r.yll

theorem oneLine_text (text : String) (h : (text.toList.all fun c => !isEnd c) = true) : OneLine text.toList := by
  rw [List.all_eq_true] at h
  constructor
  · intro hm
    exact absurd (h _ hm) (by decide)
  · intro hm
    exact absurd (h _ hm) (by decide)

theorem oneLine_vertexHead (n k : ℕ) (text : String) (h : (text.toList.all fun c => !isEnd c) = true) :
    OneLine (vertexHead n k text) := oneLine_field (word_nat n) (oneLine_field (word_nat k) (oneLine_text text h))

theorem oneLine_countHead (n : ℕ) (text : String) (h : (text.toList.all fun c => !isEnd c) = true) :
    OneLine (countHead n text) := oneLine_field (word_nat n) (oneLine_text text h)

theorem oneLine_vertexLine {c : Codec K} (hc : Faithful c) (i : ℕ) (p : K × K) (atts : List K) :
    OneLine (vertexLine c i p atts) :=
  oneLine_field (word_nat i) (oneLine_field (hc.word _) (oneLine_field (hc.word _) (oneLine_list _ hc.word atts)))

theorem oneLine_taggedLine (i : ℕ) {a b tag : Str} (ha : Word a) (hb : Word b) (h : OneLine tag) :
    OneLine (taggedLine i a b tag) := oneLine_field (word_nat i) (oneLine_field ha (oneLine_field hb h))

theorem oneLine_triangleLine (i : ℕ) (t : ℤ × ℤ × ℤ) (nb : Option ℤ × Option ℤ × Option ℤ) {tag : Str} (h : OneLine tag) :
    OneLine (triangleLine i t nb tag) :=
  oneLine_field (word_nat i) (oneLine_field (word_int _) (oneLine_field (word_int _) (oneLine_field (word_int _)
    (oneLine_field (word_neighbour _) (oneLine_field (word_neighbour _) (oneLine_field (word_neighbour _)
      (oneLine_blank h)))))))

theorem triangulation_back {c : Codec K} (hc : Faithful c) {d : Dict K} (hw : Writable d) :
    ∃ L, writeTriangulation c d = some L ∧ (∀ l ∈ L, OneLine l) ∧
      ∀ rest, readTriangulation c (L ++ rest) = some (backTri d, rest) := by
  have hrows := attributeRows_length hw.rows
  have htags := triangleTagRows_length hw.triangleTags
  have hnbs := neighbourRows_length hw.neighbours
  obtain ⟨V, hV, hVl, hVr⟩ := numbered_read (vertexLine c) (readVertex c) (fun p a => (p, a)) (readVertex_line hc) 0
    d.vertices _ hrows
  obtain ⟨T, hT, hTl, hTr⟩ := numbered_read
    (fun i t (r : (Option ℤ × Option ℤ × Option ℤ) × Str) => triangleLine i t r.1 r.2) readTriangle
    (fun t r => (t, (r.1.1.getD (-1), r.1.2.1.getD (-1), r.1.2.2.getD (-1)), strip r.2))
    (fun i t r => readTriangle_line i t r.1 r.2) 0 d.triangles
    ((neighbourRows d.triangles.length d.neighbours).zip (triangleTagRows d.triangles.length d.triangleTags))
    (by rw [List.length_zip]; exact le_min hnbs htags)
  obtain ⟨S, hS, hSl, hSr⟩ := numbered_read (fun i (s : ℤ × ℤ) tag => taggedLine i (showInt s.1) (showInt s.2) tag)
    readSegment (fun s tag => (s, strip tag)) (fun i s tag => readSegment_line i s.1 s.2 tag) 0 d.segments _ hw.segmentTags
  have hwr : ∃ L, writeTriangulation c d = some L := by
    unfold writeTriangulation
    rw [hV, hT, hS]
    exact ⟨_, rfl⟩
  obtain ⟨L, hL⟩ := hwr
  have hLe := hL
  unfold writeTriangulation at hLe
  rw [hV, hT, hS] at hLe
  have hLe := (Option.some.inj hLe).symm
  subst hLe
  refine ⟨_, hL, ?_, ?_⟩
  · intro l hl
    simp only [List.mem_append, List.mem_cons] at hl
    rcases hl with (((rfl | hl) | (rfl | hl)) | (rfl | hl)) | (rfl | hl)
    · exact oneLine_vertexHead _ _ _ (by decide +kernel)
    · exact numbered_line _ _ _ _ _ hV (fun i x y _ => oneLine_vertexLine hc i x y) l hl
    · exact oneLine_text _ (by decide +kernel)
    · exact hw.lineTitles l hl
    · exact oneLine_countHead _ _ (by decide +kernel)
    · refine numbered_line _ _ _ _ _ hT (fun i x y hy => oneLine_triangleLine i x y.1 ?_) l hl
      have hy2 : y.2 ∈ triangleTagRows d.triangles.length d.triangleTags := (List.of_mem_zip hy).2
      cases ht : d.triangleTags with
      | none =>
        rw [ht] at hy2
        rw [List.eq_of_mem_replicate hy2]
        exact oneLine_nil
      | some tags =>
        rw [ht] at hy2
        cases tags with
        | nil =>
          rw [List.eq_of_mem_replicate hy2]
          exact oneLine_nil
        | cons s tags => exact hw.lineTriangles _ ht _ hy2
    · exact oneLine_countHead _ _ (by decide +kernel)
    · exact numbered_line _ _ _ _ _ hS (fun i x y hy => oneLine_taggedLine i (word_int _) (word_int _)
        (hw.lineSegments y hy)) l hl
  · intro rest
    have hk : ∀ r, readMany (fun l => some (strip l)) (attributeCount d.vertices.length d.vertexAttributes)
        (d.vertexTitles ++ r) = some (d.vertexTitles.map strip, r) := by
      intro r
      have := readMany_map (fun l => some (strip l)) id strip (fun _ => rfl) d.vertexTitles
      rw [← columns_eq, ← hw.titles]
      simpa using this r
    simp only [List.append_assoc, List.cons_append]
    unfold readTriangulation
    simp only [line, List.headD_cons, List.tail_cons]
    rw [headOf_line]
    simp only [Option.bind_eq_bind, Option.bind_some]
    rw [hVr]
    simp only [Option.bind_some, List.tail_cons]
    rw [count_nat]
    simp only [Option.bind_some]
    rw [hk]
    simp only [Option.bind_some, List.headD_cons, List.tail_cons]
    rw [readCount_line]
    simp only [Option.bind_some]
    rw [hTr]
    simp only [Option.bind_some, List.headD_cons, List.tail_cons]
    rw [readCount_line]
    simp only [Option.bind_some]
    rw [hSr]
    simp only [Option.bind_some]
    have hz : d.triangles.length ≤ ((neighbourRows d.triangles.length d.neighbours).zip
        (triangleTagRows d.triangles.length d.triangleTags)).length := by
      rw [List.length_zip]
      exact le_min hnbs htags
    have e1 := zipWith_fst (fun (p : K × K) (a : List K) => (p, a)) (fun x => x.1) id (fun _ _ => rfl) _ _ hrows
    have e2 := zipWith_snd (fun (p : K × K) (a : List K) => (p, a)) (fun x => x.2) id (fun _ _ => rfl) _ _ hrows
    have e3 := zipWith_fst (fun (t : ℤ × ℤ × ℤ) (r : (Option ℤ × Option ℤ × Option ℤ) × Str) =>
      (t, (r.1.1.getD (-1), r.1.2.1.getD (-1), r.1.2.2.getD (-1)), strip r.2)) (fun x => x.1) id (fun _ _ => rfl) _ _ hz
    have e4 := zipWith_snd (fun (t : ℤ × ℤ × ℤ) (r : (Option ℤ × Option ℤ × Option ℤ) × Str) =>
      (t, (r.1.1.getD (-1), r.1.2.1.getD (-1), r.1.2.2.getD (-1)), strip r.2)) (fun x => x.2.2) (fun r => strip r.2)
      (fun _ _ => rfl) _ _ hz
    have e5 := zipWith_snd (fun (t : ℤ × ℤ × ℤ) (r : (Option ℤ × Option ℤ × Option ℤ) × Str) =>
      (t, (r.1.1.getD (-1), r.1.2.1.getD (-1), r.1.2.2.getD (-1)), strip r.2)) (fun x => x.2.1)
      (fun r => (r.1.1.getD (-1), r.1.2.1.getD (-1), r.1.2.2.getD (-1))) (fun _ _ => rfl) _ _ hz
    have e6 := zipWith_fst (fun (s : ℤ × ℤ) (tag : Str) => (s, strip tag)) (fun x => x.1) id (fun _ _ => rfl) _ _ hw.segmentTags
    have e7 := zipWith_snd (fun (s : ℤ × ℤ) (tag : Str) => (s, strip tag)) (fun x => x.2) strip (fun _ _ => rfl) _ _ hw.segmentTags
    rw [e1, e2, e3, e4, e5, e6, e7]
    have hle : ((neighbourRows d.triangles.length d.neighbours).take d.triangles.length).length
        ≤ ((triangleTagRows d.triangles.length d.triangleTags).take d.triangles.length).length := by
      rw [List.length_take, List.length_take, min_eq_left htags, min_eq_left hnbs]
    have h1 : (((neighbourRows d.triangles.length d.neighbours).zip
        (triangleTagRows d.triangles.length d.triangleTags)).take d.triangles.length).map (fun r => strip r.2)
        = ((triangleTagRows d.triangles.length d.triangleTags).take d.triangles.length).map strip := by
      rw [List.zip_eq_zipWith, List.take_zipWith, zipWith_snd Prod.mk (fun r => strip r.2) strip (fun _ _ => rfl) _ _ hle,
        List.take_take, List.length_take, min_eq_left hnbs, min_self]
    have h2 : (((neighbourRows d.triangles.length d.neighbours).zip
        (triangleTagRows d.triangles.length d.triangleTags)).take d.triangles.length).map
          (fun r => (r.1.1.getD (-1), r.1.2.1.getD (-1), r.1.2.2.getD (-1)))
        = ((neighbourRows d.triangles.length d.neighbours).take d.triangles.length).map
          fun n => (n.1.getD (-1), n.2.1.getD (-1), n.2.2.getD (-1)) := by
      rw [List.zip_eq_zipWith, List.take_zipWith, zipWith_fst Prod.mk (fun r : (Option ℤ × Option ℤ × Option ℤ) × Str =>
        (r.1.1.getD (-1), r.1.2.1.getD (-1), r.1.2.2.getD (-1))) (fun n => (n.1.getD (-1), n.2.1.getD (-1), n.2.2.getD (-1)))
        (fun _ _ => rfl) _ _ hle]
    rw [h1, h2]
    simp only [List.map_id]
    rfl

theorem readRef_back {c : Codec K} (hc : Faithful c) (g : Option (Ref K)) :
    readRef c (writeRef c g) = g.map fun r => Ref.plain r.zone r.xll r.yll := by
  cases g with
  | none => rfl
  | some r =>
    have h0 : ((line (writeRef c (some r))).take 2).map Char.toUpper = "#G".toList := by
      show (("#geo reference".toList).take 2).map Char.toUpper = "#G".toList
      decide
    have h1 : line (writeRef c (some r)).tail = showInt r.zone := rfl
    have h2 : line (writeRef c (some r)).tail.tail = c.show' r.xll := rfl
    have h3 : line (writeRef c (some r)).tail.tail.tail = c.show' r.yll := rfl
    unfold readRef
    rw [if_pos h0, h1, h2, h3, strip_self (word_int _).trim, strip_self (hc.word _).trim, strip_self (hc.word _).trim,
      readInt_show, hc.back, hc.back]
    rfl

theorem outline_back {c : Codec K} (hc : Faithful c) {d : Dict K} (hw : Writable d) :
    ∃ L, writeOutline c d = some L ∧ (∀ l ∈ L, OneLine l) ∧ readOutline c L = some (backOutline d) := by
  obtain ⟨V, hV, hVl, hVr⟩ := numbered_read (vertexLine c) (readVertex c) (fun p a => (p, a)) (readVertex_line hc) 0
    d.points _ hw.pointAttributes
  obtain ⟨S, hS, hSl, hSr⟩ := numbered_read (fun i (s : ℤ × ℤ) tag => taggedLine i (showInt s.1) (showInt s.2) tag)
    readSegment (fun s tag => (s, strip tag)) (fun i s tag => readSegment_line i s.1 s.2 tag) 0 d.outline _ hw.outlineTags
  have hhole : ∀ (i : ℕ) (h : K × K) (u : Unit),
      readPlace c (showNat i ++ ' ' :: (c.show' h.1 ++ ' ' :: c.show' h.2))
        = some (h, tagOf (showNat 0 ++ ' ' :: (c.show' h.1 ++ ' ' :: c.show' h.2))) := by
    intro i h _
    unfold readPlace
    rw [words_cons (word_nat i), words_cons (hc.word _), words_word (hc.word _)]
    simp only
    rw [hc.back, hc.back]
    unfold tagOf
    rw [cut_word (word_nat i), cut_word (word_nat 0)]
    rfl
  obtain ⟨H, hH, hHl, hHr⟩ := numbered_read
    (fun i (h : K × K) (_ : Unit) => showNat i ++ ' ' :: (c.show' h.1 ++ ' ' :: c.show' h.2)) (readPlace c)
    (fun h _ => (h, tagOf (showNat 0 ++ ' ' :: (c.show' h.1 ++ ' ' :: c.show' h.2)))) hhole 0 d.holes
    (List.replicate d.holes.length ()) (by simp)
  obtain ⟨R, hR, hRl, hRr⟩ := numbered_read (fun i (r : K × K) tag => taggedLine i (c.show' r.1) (c.show' r.2) tag)
    (readPlace c) (fun r tag => (r, strip tag)) (fun i r tag => readPlace_line hc i r tag) 0 d.regions _ hw.regionTags
  obtain ⟨A, hA, hAl, hAr⟩ := numbered_read (fun i (_ : K × K) a => showNat i ++ ' ' :: showArea c a)
    (fun l => some (readArea c l)) (fun _ a => a) (fun i _ a => by rw [readArea_line hc]) 0 d.regions _ hw.regionAreas
  obtain ⟨k, hk⟩ : ∃ k, pointColumns d = some k := by
    unfold pointColumns
    by_cases h0 : d.points.length = 0
    · exact ⟨0, if_pos h0⟩
    · rw [if_neg h0]
      cases hp : d.pointAttributes with
      | nil =>
        have := hw.pointAttributes
        rw [hp] at this
        exact absurd (Nat.le_zero.1 this) h0
      | cons a as => exact ⟨_, rfl⟩
  have hwr : ∃ L, writeOutline c d = some L := by
    unfold writeOutline
    rw [hk, hV, hS, hH, hR, hA]
    exact ⟨_, rfl⟩
  obtain ⟨L, hL⟩ := hwr
  have hLe := hL
  unfold writeOutline at hLe
  rw [hk, hV, hS, hH, hR, hA] at hLe
  have hLe := (Option.some.inj hLe).symm
  subst hLe
  refine ⟨_, hL, ?_, ?_⟩
  · intro l hl
    simp only [List.mem_append, List.mem_cons] at hl
    rcases hl with (((((rfl | hl) | (rfl | hl)) | (rfl | hl)) | (rfl | hl)) | (rfl | hl)) | hl
    · exact oneLine_vertexHead _ _ _ (by decide +kernel)
    · exact numbered_line _ _ _ _ _ hV (fun i x y _ => oneLine_vertexLine hc i x y) l hl
    · exact oneLine_countHead _ _ (by decide +kernel)
    · exact numbered_line _ _ _ _ _ hS (fun i x y hy => oneLine_taggedLine i (word_int _) (word_int _)
        (hw.lineOutline y hy)) l hl
    · exact oneLine_countHead _ _ (by decide +kernel)
    · exact numbered_line _ _ _ _ _ hH (fun i x y hy => oneLine_field (word_nat i) (oneLine_field (hc.word _)
        (hc.word _).oneLine)) l hl
    · exact oneLine_countHead _ _ (by decide +kernel)
    · exact numbered_line _ _ _ _ _ hR (fun i x y hy => oneLine_taggedLine i (hc.word _) (hc.word _)
        (hw.lineRegions y hy)) l hl
    · exact oneLine_countHead _ _ (by decide +kernel)
    · refine numbered_line _ _ _ _ _ hA (fun i x y hy => oneLine_field (word_nat i) ?_) l hl
      cases y with
      | none => exact word_none.oneLine
      | some a => exact (hc.word a).oneLine
    · cases hg : d.geo with
      | none => rw [hg] at hl; exact absurd hl (by simp [writeRef])
      | some r =>
        rw [hg] at hl
        simp only [writeRef, List.mem_cons, List.not_mem_nil, or_false] at hl
        rcases hl with rfl | rfl | rfl | rfl
        · exact oneLine_text "#geo reference" (by decide)
        · exact (word_int _).oneLine
        · exact (hc.word _).oneLine
        · exact (hc.word _).oneLine
  · simp only [List.append_assoc, List.cons_append]
    unfold readOutline
    simp only [line, List.headD_cons, List.tail_cons]
    rw [headOf_line]
    simp only [Option.bind_eq_bind, Option.bind_some]
    rw [hVr]
    simp only [Option.bind_some, List.headD_cons, List.tail_cons]
    rw [readCount0_line]
    simp only [Option.bind_some]
    rw [hSr]
    simp only [Option.bind_some, List.headD_cons, List.tail_cons]
    rw [readCount0_line]
    simp only [Option.bind_some]
    rw [hHr]
    simp only [Option.bind_some, List.headD_cons, List.tail_cons]
    rw [readCount0_line]
    simp only [Option.bind_some]
    rw [hRr]
    simp only [Option.bind_some, List.tail_cons]
    rw [hAr]
    simp only [Option.bind_some]
    have e1 := zipWith_fst (fun (p : K × K) (a : List K) => (p, a)) (fun x => x.1) id (fun _ _ => rfl) _ _ hw.pointAttributes
    have e2 := zipWith_snd (fun (p : K × K) (a : List K) => (p, a)) (fun x => x.2) id (fun _ _ => rfl) _ _ hw.pointAttributes
    have e3 := zipWith_fst (fun (s : ℤ × ℤ) (tag : Str) => (s, strip tag)) (fun x => x.1) id (fun _ _ => rfl) _ _ hw.outlineTags
    have e4 := zipWith_snd (fun (s : ℤ × ℤ) (tag : Str) => (s, strip tag)) (fun x => x.2) strip (fun _ _ => rfl) _ _ hw.outlineTags
    have e5 := zipWith_fst (fun (h : K × K) (_ : Unit) => (h, tagOf (showNat 0 ++ ' ' :: (c.show' h.1 ++ ' ' :: c.show' h.2))))
      (fun x => x.1) id (fun _ _ => rfl) d.holes (List.replicate d.holes.length ()) (by simp)
    have e6 := zipWith_fst (fun (r : K × K) (tag : Str) => (r, strip tag)) (fun x => x.1) id (fun _ _ => rfl) _ _ hw.regionTags
    have e7 := zipWith_snd (fun (r : K × K) (tag : Str) => (r, strip tag)) (fun x => x.2) strip (fun _ _ => rfl) _ _ hw.regionTags
    rw [e1, e2, e3, e4, e5, e6, e7, readRef_back hc]
    have h1 : List.zipWith (fun (_ : K × K) (a : Option K) => a) d.regions d.regionAreas = d.regionAreas.take d.regions.length := by
      have := zipWith_snd (fun (_ : K × K) (a : Option K) => a) id id (fun _ _ => rfl) _ _ hw.regionAreas
      simpa using this
    rw [h1]
    simp only [List.map_id]
    rfl

/-- What is read back. -/
def back (d : Dict K) : Dict K := merge (backTri d) (backOutline d)

theorem tsh_back {c : Codec K} (hc : Faithful c) {d : Dict K} (hw : Writable d) :
    ∃ text, writeTsh c d = some text ∧ readTsh c text = some (back d) := by
  obtain ⟨T, hT, hTl, hTr⟩ := triangulation_back hc hw
  obtain ⟨O, hO, hOl, hOr⟩ := outline_back hc hw
  refine ⟨(T ++ O).flatMap fun l => l ++ ['\n'], ?_, ?_⟩
  · unfold writeTsh
    rw [hT, hO]
    rfl
  · unfold readTsh
    rw [lines_text _ fun l hl => (List.mem_append.1 hl).elim (hTl l) (hOl l)]
    unfold readLines
    rw [hTr]
    simp only [Option.bind_eq_bind, Option.bind_some]
    rw [hOr]
    rfl

end Verif.MeshFile
