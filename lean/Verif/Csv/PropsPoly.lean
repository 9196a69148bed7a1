import Verif.Csv.LemmasPoly

set_option linter.unusedSectionVars false

/-! # Files of polygons -/

namespace Verif.Csv

variable {C K : Type} [DecidableEq C]

/-- A file of polygons of four columns: where the columns are and which rows there are. -/
structure Layout (strip : C → C) (nm : Names C) (value : C) (head : List C) (lines : List (List C)) (l : List (Row C)) : Prop where
  distinct : (head.map strip).Nodup
  four : head.length = 4
  wide : ∀ r ∈ lines, 4 ≤ r.length
  someLine : lines ≠ []
  rows : ∃ ji je jn jv : ℕ, (head.map strip)[ji]? = some nm.id ∧ (head.map strip)[je]? = some nm.easting ∧
    (head.map strip)[jn]? = some nm.northing ∧ (head.map strip)[jv]? = some value ∧
    lines.map (fun r => (r[ji]?, r[je]?, r[jn]?, r[jv]?)) = l.map fun q => (some q.1, some q.2.1, some q.2.2.1, some q.2.2.2)

theorem colsOf_get (n : ℕ) (lines : List (List C)) (z : C) (j : ℕ) (hj : j < n) :
    (colsOf n lines z)[j]? = some (lines.map fun r => r.getD j z) := by
  simp [colsOf, hj]

theorem zip_rows (lines : List (List C)) (z : C) (l : List (Row C)) (ji je jn jv : ℕ)
    (h : lines.map (fun r => (r[ji]?, r[je]?, r[jn]?, r[jv]?)) = l.map fun q => (some q.1, some q.2.1, some q.2.2.1, some q.2.2.2)) :
    (lines.map fun r => r.getD ji z).zip ((lines.map fun r => r.getD je z).zip ((lines.map fun r => r.getD jn z).zip
      (lines.map fun r => r.getD jv z))) = l := by
  induction lines generalizing l with
  | nil => cases l with
    | nil => rfl
    | cons q l => simp at h
  | cons r lines ih => cases l with
    | nil => simp at h
    | cons q l =>
      rw [List.map_cons, List.map_cons, List.cons.injEq] at h
      have h1 := h.1
      simp only [Prod.mk.injEq] at h1
      simp only [List.map_cons, List.zip_cons_cons]
      rw [ih l h.2]
      simp only [List.getD_eq_getElem?_getD, h1.1, h1.2.1, h1.2.2.1, h1.2.2.2, Option.getD_some]

theorem loadPolygons_rows {strip : C → C} {nm : Names C} {value : C} {head : List C} {lines : List (List C)} {l : List (Row C)}
    (h : Layout strip nm value head lines l) (num : C → Option K) (clip : Option ℕ) :
    loadPolygons strip num nm (some value) clip (head :: lines) =
      match polyRows num clip ⟨[], [], [], none, []⟩ l with
      | .error e => .error e
      | .ok s => .ok (s.polygons.filter fun p => !decide (p.1 ∈ s.excluded), s.values) := by
  obtain ⟨ji, je, jn, jv, hi, he, hn, hv, hr⟩ := h.rows
  obtain ⟨z, hz⟩ := List.exists_mem_of_ne_nil head (by intro e; have := h.four; rw [e] at this; simp at this)
  have hlen : (head.map strip).length = 4 := by rw [List.length_map, h.four]
  have ho := addRows_ok (head.map strip) h.distinct z lines h.someLine (by rw [hlen]; exact h.wide)
  have hload : load strip [] (head :: lines) = .ok ⟨(head.map strip).zip (colsOf (head.map strip).length lines z), (head.map strip).zipIdx⟩ := by
    rw [load]
    simp only [List.all_nil, if_true]
    rw [ho, index_eq _ h.distinct]
  have hg : ∀ (j : ℕ) c, (head.map strip)[j]? = some c →
      get c ((head.map strip).zip (colsOf (head.map strip).length lines z)) = some (lines.map fun r => r.getD j z) := by
    intro j c hj
    rw [get_zip _ _ h.distinct j c hj, colsOf_get _ _ _ _ (List.getElem?_eq_some_iff.mp hj).1]
  have hcl : ((head.map strip).zip (colsOf (head.map strip).length lines z)).length = 4 := by simp [colsOf, h.four]
  rw [loadPolygons, hload]
  simp only
  rw [hcl, if_neg (by omega), hg je _ he, hg jn _ hn, hg ji _ hi]
  simp only
  rw [hg jv _ hv]
  simp only
  rw [if_neg (by omega), if_neg (by simp), zip_rows lines z l ji je jn jv hr]
  all_goals (cases polyRows num clip ⟨[], [], [], none, []⟩ l <;> rfl)

/-- **C113.** A file of polygons is taken if the rows of every polygon stand together and have the same value and all coordinates are numbers, and
only then. -/
theorem C113_polygons_taken {strip : C → C} {nm : Names C} {value : C} {head : List C} {lines : List (List C)} {l : List (Row C)}
    (h : Layout strip nm value head lines l) (num : C → Option K) :
    (∃ r, loadPolygons strip num nm (some value) none (head :: lines) = .ok r) ↔ Proper num l := by
  rw [loadPolygons_rows h]
  rcases polyRows_all num l [] (inv_nil num) (proper_nil num) with ⟨hp, s, hs, -⟩ | ⟨hp, e, hs⟩
  · rw [hs]
    exact ⟨fun _ => hp, fun _ => ⟨_, rfl⟩⟩
  · rw [hs]
    constructor
    · rintro ⟨r, hr⟩; cases hr
    · intro hc; exact absurd hc hp

/-- **C113.** Every polygon holds the points of its rows in their order, and its value is that of its rows; there are no others. -/
theorem C113_polygons {strip : C → C} {nm : Names C} {value : C} {head : List C} {lines : List (List C)} {l : List (Row C)}
    (h : Layout strip nm value head lines l) (num : C → Option K) {polys : List (C × List (K × K))} {vals : List (C × C)}
    (ho : loadPolygons strip num nm (some value) none (head :: lines) = .ok (polys, vals)) :
    (∀ r ∈ l, get r.1 polys = some (outline num l r.1) ∧ (outline num l r.1).length = l.countP (fun q => decide (q.1 = r.1)) ∧
      get r.1 vals = some r.2.2.2) ∧
      ∀ id, (∀ r ∈ l, r.1 ≠ id) → get id polys = none ∧ get id vals = none := by
  rw [loadPolygons_rows h] at ho
  rcases polyRows_all num l [] (inv_nil num) (proper_nil num) with ⟨hp, s, hs, hi⟩ | ⟨hp, e, hs⟩
  · rw [hs] at ho
    cases ho
    rw [List.nil_append] at hi hp
    have hf : (s.polygons.filter fun p => !decide (p.1 ∈ s.excluded)) = s.polygons := by
      rw [hi.excluded]; simp
    rw [hf]
    constructor
    · intro r hr
      have hm : r.1 ∈ l.map Prod.fst := List.mem_map_of_mem hr
      refine ⟨by rw [hi.polygons, if_pos hm], ?_, hi.value r hr⟩
      unfold outline
      rw [List.countP_eq_length_filter]
      have : ∀ q ∈ l.filter (fun q => decide (q.1 = r.1)), (point num q).isSome := fun q hq => hp.2.2 q (List.mem_of_mem_filter hq)
      generalize l.filter (fun q => decide (q.1 = r.1)) = w at this
      induction w with
      | nil => rfl
      | cons q w ih =>
        obtain ⟨p, hq⟩ := Option.isSome_iff_exists.mp (this q List.mem_cons_self)
        rw [List.filterMap_cons_some hq, List.length_cons, List.length_cons, ih fun q hq => this q (List.mem_cons_of_mem _ hq)]
    · intro id hid
      have hm : id ∉ l.map Prod.fst := by
        intro hc
        obtain ⟨r, hr, e⟩ := List.mem_map.mp hc
        exact hid r hr e
      exact ⟨by rw [hi.polygons, if_neg hm], hi.values id hm⟩
  · rw [hs] at ho
    cases ho

/-- **C113.** Heights of buildings are the numbers of floors times the height of a floor. -/
theorem C113_heights [Mul K] (num : C → Option K) (floor : K) {vals : List (C × C)} {hs : List (C × K)} (h : heights num floor vals = .ok hs)
    (id : C) : get id hs = (get id vals).bind fun v => (num v).map (· * floor) := by
  induction vals generalizing hs with
  | nil => cases h; rfl
  | cons x vals ih =>
    obtain ⟨k, v⟩ := x
    rw [heights] at h
    split at h
    · cases h
    · next y hy =>
      split at h
      · cases h
      · next r hr =>
        cases h
        rw [get, get]
        by_cases hk : k = id
        · rw [if_pos hk, if_pos hk, Option.bind_some, hy]; rfl
        · rw [if_neg hk, if_neg hk, ih hr]

/-- **C113.** Polygons for clipping cannot be used: any file with rows is refused as soon as one is given. -/
theorem C113_clipping {strip : C → C} {nm : Names C} {value : C} {head : List C} {lines : List (List C)} {l : List (Row C)}
    (h : Layout strip nm value head lines l) (num : C → Option K) (k : ℕ) :
    ∃ e, loadPolygons strip num nm (some value) (some (k + 1)) (head :: lines) = .error e := by
  rw [loadPolygons_rows h]
  obtain ⟨ji, je, jn, jv, hi, he, hn, hv, hr⟩ := h.rows
  cases l with
  | nil =>
    have := h.someLine
    simp at hr
    exact absurd hr this
  | cons r l =>
    obtain ⟨id, x, y, v⟩ := r
    rw [polyRows, polyRow, if_neg (by simp)]
    cases hx : num x with
    | none => exact ⟨_, rfl⟩
    | some x' =>
      cases hy : num y with
      | none => exact ⟨_, rfl⟩
      | some y' => exact ⟨_, rfl⟩

/-- **C113.** The column of values cannot be left out: without its name no file is taken, and no file of three columns. -/
theorem C113_no_values (strip : C → C) (nm : Names C) (num : C → Option K) (clip : Option ℕ) (rows : List (List C)) :
    (∃ e, loadPolygons strip num nm none clip rows = .error e) ∧
      ∀ value t, load strip [] rows = .ok t → t.columns.length = 3 → ∃ e, loadPolygons strip num nm value clip rows = .error e := by
  constructor
  · rw [loadPolygons]
    cases load strip [] rows with
    | error e => exact ⟨_, rfl⟩
    | ok t =>
      simp only
      by_cases h : t.columns.length ≠ 3 ∧ t.columns.length ≠ 4
      · rw [if_pos h]; exact ⟨_, rfl⟩
      · rw [if_neg h]
        split <;> exact ⟨_, rfl⟩
  · intro value t ht h3
    rw [loadPolygons, ht]
    simp only
    rw [if_neg (by omega)]
    split
    · split
      · exact ⟨_, rfl⟩
      · split
        · exact ⟨_, rfl⟩
        · rw [if_pos h3]; exact ⟨_, rfl⟩
    · exact ⟨_, rfl⟩

end Verif.Csv
