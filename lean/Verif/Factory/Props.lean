import Verif.Factory.Diagonal
import Verif.Mesh.Props

/-! # C64: the structured mesh generators -/

namespace Verif.Factory

set_option linter.unusedSectionVars false

open Verif.Polygon (Pt)
open Verif.Mesh

variable {K : Type*} [Field K] [LinearOrder K] [IsStrictOrderedRing K]

theorem cells (m : ℕ) (hm : 0 < m) (len : K) : len / m * m = len := div_mul_cancel₀ _ (by exact_mod_cast hm.ne')

theorem step_pos (m : ℕ) (hm : 0 < m) (len : K) (h : 0 < len) : 0 < len / m := div_pos h (by exact_mod_cast hm)

/-! ## Cross mesh -/

/-- C64: `rectangular_cross` returns `(m+1)(n+1) + mn` distinct points, all of them used, and `4mn` counter-clockwise triangles of equal area. -/
theorem C64_cross_triangles (m n : ℕ) (hm : 0 < m) (hn : 0 < n) (len1 len2 : K) (o : K × K) (h1 : 0 < len1) (h2 : 0 < len2) :
    let r := crossPython m n len1 len2 o
    r.points.length = (m + 1) * (n + 1) + m * n ∧ r.elems.length = 4 * (m * n) ∧ PointsUsed r.points r.elems ∧
      Uniform r.points r.elems (len1 * len2 / (4 * (m * n))) := by
  simp only [crossPython_eq]
  refine ⟨crossPts_length m n _ _ o, crossElems_length m n,
    cross_points m n hm hn _ _ o (step_pos m hm len1 h1) (step_pos n hn len2 h2), ?_⟩
  have := cross_uniform m n _ _ o (step_pos m hm len1 h1) (step_pos n hn len2 h2)
  have e : len1 / m * (len2 / n) / 4 = len1 * len2 / (4 * (m * n)) := by
    have hm' : (m : K) ≠ 0 := by exact_mod_cast hm.ne'
    have hn' : (n : K) ≠ 0 := by exact_mod_cast hn.ne'
    field_simp
  rw [e] at this
  exact this

/-- C64: these triangles cover the rectangle exactly, without overlap. -/
theorem C64_cross_tiles (m n : ℕ) (hm : 0 < m) (hn : 0 < n) (len1 len2 : K) (o : K × K) (h1 : 0 < len1) (h2 : 0 < len2) :
    let r := crossPython m n len1 len2 o
    Tiles r.points r.elems o len1 len2 := by
  simp only [crossPython_eq]
  have := cross_tiles m n hm hn _ _ o (step_pos m hm len1 h1) (step_pos n hn len2 h2)
  rw [cells m hm, cells n hn] at this
  exact this

/-- C64: the triangles fit together edge to edge, and the boundary dictionary holds exactly the outer edges, each with the name of its side. -/
theorem C64_cross_boundary (m n : ℕ) (hm : 0 < m) (hn : 0 < n) (len1 len2 : K) (o : K × K) (h1 : 0 < len1) (h2 : 0 < len2) :
    let r := crossPython m n len1 len2 o
    Conforming r.elems ∧ Tagged r.points r.elems r.boundary o len1 len2 := by
  simp only [crossPython_eq]
  refine ⟨cross_conforming m n, ?_⟩
  have := cross_tagged m n _ _ o (step_pos m hm len1 h1) (step_pos n hn len2 h2)
  rw [cells m hm, cells n hn] at this
  exact this

/-- C64: the compiled generator, which fills arrays of arbitrary previous content, returns the same mesh as the Python one, for all arguments. -/
theorem C64_compiled_same (m n : ℕ) (len1 len2 : K) (o : K × K) (points : List (Pt K)) (elems : List (ℕ × ℕ × ℕ))
    (hp : points.length = (m + 1) * (n + 1) + m * n) (he : elems.length = 4 * m * n) :
    crossC m n len1 len2 o points elems = crossPython m n len1 len2 o := crossC_eq m n len1 len2 o points elems hp he

/-! ## Diagonal mesh -/

/-- C64: `rectangular` returns `(m+1)(n+1)` distinct points, all of them used, and `2mn` counter-clockwise triangles of equal area. -/
theorem C64_diagonal_triangles (m n : ℕ) (hm : 0 < m) (hn : 0 < n) (len1 len2 : K) (o : K × K) (h1 : 0 < len1) (h2 : 0 < len2) :
    let r := rectangular m n len1 len2 o
    r.points.length = (m + 1) * (n + 1) ∧ r.elems.length = 2 * (m * n) ∧ PointsUsed r.points r.elems ∧
      Uniform r.points r.elems (len1 * len2 / (2 * (m * n))) := by
  simp only [rectangular_eq]
  refine ⟨rectPts_length m n _ _ o, rectElems_length m n,
    rect_points m n hm hn _ _ o (step_pos m hm len1 h1) (step_pos n hn len2 h2), ?_⟩
  have := rect_uniform m n _ _ o (step_pos m hm len1 h1) (step_pos n hn len2 h2)
  have e : len1 / m * (len2 / n) / 2 = len1 * len2 / (2 * (m * n)) := by
    have hm' : (m : K) ≠ 0 := by exact_mod_cast hm.ne'
    have hn' : (n : K) ≠ 0 := by exact_mod_cast hn.ne'
    field_simp
  rw [e] at this
  exact this

/-- C64: these triangles cover the rectangle exactly, without overlap. -/
theorem C64_diagonal_tiles (m n : ℕ) (hm : 0 < m) (hn : 0 < n) (len1 len2 : K) (o : K × K) (h1 : 0 < len1) (h2 : 0 < len2) :
    let r := rectangular m n len1 len2 o
    Tiles r.points r.elems o len1 len2 := by
  simp only [rectangular_eq]
  have := rect_tiles m n hm hn _ _ o (step_pos m hm len1 h1) (step_pos n hn len2 h2)
  rw [cells m hm, cells n hn] at this
  exact this

/-- C64: the triangles fit together edge to edge, and the boundary dictionary holds exactly the outer edges, each with the name of its side. -/
theorem C64_diagonal_boundary (m n : ℕ) (hm : 0 < m) (hn : 0 < n) (len1 len2 : K) (o : K × K) (h1 : 0 < len1) (h2 : 0 < len2) :
    let r := rectangular m n len1 len2 o
    Conforming r.elems ∧ Tagged r.points r.elems r.boundary o len1 len2 := by
  simp only [rectangular_eq]
  refine ⟨rect_conforming m n, ?_⟩
  have := rect_tagged m n _ _ o (step_pos m hm len1 h1) (step_pos n hn len2 h2)
  rw [cells m hm, cells n hn] at this
  exact this

/-! ## Building the mesh -/

/-- C64: a mesh and boundary dictionary of this kind are accepted by the mesh constructor, and every boundary edge keeps the tag of its side: none is
left with the default tag. -/
theorem C64_accepted (points : List (Pt K)) (elems : List (ℕ × ℕ × ℕ)) (boundary : List ((ℕ × ℕ) × String)) (o : K × K) (len1 len2 : K)
    (hc : Conforming elems) (ht : Tagged points elems boundary o len1 len2)
    (hall : ∀ k e, k < elems.length → e < 3 → (¬ ∃ l j, Across elems k e l j) → ∃ tag, ((k, e), tag) ∈ boundary) :
    ∃ M, buildMesh elems boundary = .ok M ∧ ∀ k e tag, M.boundary.lookup (k, e) = some tag ↔ ((k, e), tag) ∈ boundary := by
  cases hb : buildMesh elems boundary with
  | error err =>
    exfalso
    cases err with
    | noSuchSegment =>
      obtain ⟨-, ⟨⟨k, e⟩, tag⟩, hx, hbad⟩ := (C07_bad_segment_rejected elems boundary).mp hb
      obtain ⟨-, a, b, A, B, ⟨n0, n1, n2, hk, hh⟩, -⟩ := (ht.2 k e tag).mp hx
      apply hbad
      refine ⟨(List.getElem?_eq_some_iff.mp hk).1, ?_⟩
      show e < 3
      omega
    | duplicateEdge =>
      unfold buildMesh at hb
      cases hn : buildNeighbours elems with
      | none => exact (C06_rejects_exactly_nonconforming elems).mp hn hc
      | some nbr =>
        rw [hn] at hb
        simp only at hb
        split at hb <;> cases hb
  | ok M =>
    refine ⟨M, rfl, ?_⟩
    intro k e tag
    rw [C07_tags elems boundary ht.1 M hb]
    constructor
    · rintro (h | ⟨h, hk, he, hn, -⟩)
      · exact h
      · obtain ⟨tag', h'⟩ := hall k e hk he hn
        exact absurd h' (h tag')
    · exact Or.inl

/-- C64: so `rectangular_cross` always yields a valid mesh whose boundary tags are the four sides. -/
theorem C64_cross_accepted (m n : ℕ) (hm : 0 < m) (hn : 0 < n) (len1 len2 : K) (o : K × K) (h1 : 0 < len1) (h2 : 0 < len2) :
    let r := crossPython m n len1 len2 o
    ∃ M, buildMesh r.elems r.boundary = .ok M ∧ ∀ k e tag, M.boundary.lookup (k, e) = some tag ↔ ((k, e), tag) ∈ r.boundary := by
  intro r
  obtain ⟨hc, ht⟩ := C64_cross_boundary m n hm hn len1 len2 o h1 h2
  refine C64_accepted r.points r.elems r.boundary o len1 len2 hc ht ?_
  intro k e hk he hno
  have hr : r.elems = crossElems m n := by show (crossPython m n len1 len2 o).elems = _; rw [crossPython_eq]; rfl
  have hb : r.boundary = crossBdry m n := by show (crossPython m n len1 len2 o).boundary = _; rw [crossPython_eq]; rfl
  rw [hr] at hk hno
  rw [crossElems_length] at hk
  obtain ⟨i, j, t, hi, hj, ht, rfl⟩ := cross_split hk
  obtain ⟨rfl, hrim⟩ := (cross_across hi hj ht he).mp hno
  rw [hb]
  rcases hrim with ⟨rfl, h⟩ | ⟨rfl, h⟩ | ⟨rfl, h⟩ | ⟨rfl, h⟩
  · exact ⟨"left", (mem_crossBdry m n _ _ _).mpr ⟨i, j, 0, hi, hj, ht, rfl, rfl, Or.inl ⟨rfl, h, rfl⟩⟩⟩
  · exact ⟨"bottom", (mem_crossBdry m n _ _ _).mpr ⟨i, j, 1, hi, hj, ht, rfl, rfl, Or.inr (Or.inl ⟨rfl, h, rfl⟩)⟩⟩
  · exact ⟨"right", (mem_crossBdry m n _ _ _).mpr ⟨i, j, 2, hi, hj, ht, rfl, rfl, Or.inr (Or.inr (Or.inl ⟨rfl, h, rfl⟩))⟩⟩
  · exact ⟨"top", (mem_crossBdry m n _ _ _).mpr ⟨i, j, 3, hi, hj, ht, rfl, rfl, Or.inr (Or.inr (Or.inr ⟨rfl, h, rfl⟩))⟩⟩

/-- C64: likewise for `rectangular`. -/
theorem C64_diagonal_accepted (m n : ℕ) (hm : 0 < m) (hn : 0 < n) (len1 len2 : K) (o : K × K) (h1 : 0 < len1) (h2 : 0 < len2) :
    let r := rectangular m n len1 len2 o
    ∃ M, buildMesh r.elems r.boundary = .ok M ∧ ∀ k e tag, M.boundary.lookup (k, e) = some tag ↔ ((k, e), tag) ∈ r.boundary := by
  intro r
  obtain ⟨hc, ht⟩ := C64_diagonal_boundary m n hm hn len1 len2 o h1 h2
  refine C64_accepted r.points r.elems r.boundary o len1 len2 hc ht ?_
  intro k e hk he hno
  have hr : r.elems = rectElems m n := by show (rectangular m n len1 len2 o).elems = _; rw [rectangular_eq]; rfl
  have hb : r.boundary = rectBdry m n := by show (rectangular m n len1 len2 o).boundary = _; rw [rectangular_eq]; rfl
  rw [hr] at hk hno
  rw [rectElems_length] at hk
  obtain ⟨i, j, t, hi, hj, ht, rfl⟩ := rect_split hk
  have hrim := (rect_across hi hj ht he).mp hno
  rw [hb]
  rcases hrim with ⟨rfl, rfl, h⟩ | ⟨rfl, rfl, h⟩ | ⟨rfl, rfl, h⟩ | ⟨rfl, rfl, h⟩
  · exact ⟨"right", (mem_rectBdry m n _ _ _).mpr ⟨i, j, 0, hi, hj, ht, rfl, Or.inl ⟨rfl, rfl, h, rfl⟩⟩⟩
  · exact ⟨"bottom", (mem_rectBdry m n _ _ _).mpr ⟨i, j, 0, hi, hj, ht, rfl, Or.inr (Or.inl ⟨rfl, rfl, h, rfl⟩)⟩⟩
  · exact ⟨"left", (mem_rectBdry m n _ _ _).mpr ⟨i, j, 1, hi, hj, ht, rfl, Or.inr (Or.inr (Or.inl ⟨rfl, rfl, h, rfl⟩))⟩⟩
  · exact ⟨"top", (mem_rectBdry m n _ _ _).mpr ⟨i, j, 1, hi, hj, ht, rfl, Or.inr (Or.inr (Or.inr ⟨rfl, rfl, h, rfl⟩))⟩⟩

/-! ## Periodic mesh -/

theorem picked_column (M n c : ℕ) (hc : c < M) (p : ℕ → Bool) (hp : ∀ i, p i = true ↔ i = c) :
    picked n p (loop2 M n) = (List.range n).flatMap fun j => [2 * (c * n + j) + 0, 2 * (c * n + j) + 1] := by
  unfold picked loop2
  rw [List.flatMap_assoc]
  have hz : ∀ l : List ℕ, (∀ i ∈ l, i ≠ c) → (l.flatMap fun i => ((List.range n).map fun j => (i, j)).flatMap fun x =>
      if p x.1 then [2 * (x.2 + x.1 * n), 2 * (x.2 + x.1 * n) + 1] else []) = [] := by
    intro l hl
    rw [List.flatMap_eq_nil_iff]
    intro i hi
    rw [List.flatMap_map, List.flatMap_eq_nil_iff]
    intro j _
    have : ¬ p i = true := fun h => hl i hi ((hp i).mp h)
    simp [this]
  obtain ⟨d, rfl⟩ : ∃ d, M = c + (d + 1) := ⟨M - c - 1, by omega⟩
  rw [List.range_add, List.flatMap_append, hz (List.range c) (fun i hi => by have := List.mem_range.mp hi; omega), List.nil_append,
    List.range_succ_eq_map, List.map_cons, List.flatMap_cons, hz _ (by simp), List.append_nil, List.flatMap_map]
  apply List.flatMap_congr
  intro j _
  have : p c = true := (hp c).mpr rfl
  simp only [add_zero, this, if_true, add_comm j]

/-- The triangles of column `c`. -/
def column (n c : ℕ) : List ℕ := (List.range n).flatMap fun j => [2 * (c * n + j) + 0, 2 * (c * n + j) + 1]

theorem column_length (n c : ℕ) : (column n c).length = 2 * n := by
  unfold column
  rw [flatMap_length _ 2 (fun _ => rfl), List.length_range]

theorem column_get (n c k : ℕ) (hk : k < 2 * n) : (column n c)[k]? = some (2 * (c * n + k / 2) + k % 2) := by
  unfold column
  have e : k = 2 * (k / 2) + k % 2 := by omega
  rw [e, flatMap_get _ 2 (fun _ => rfl) _ _ _ (by omega), List.getElem?_range (by omega)]
  have h2 : k % 2 < 2 := by omega
  generalize k % 2 = t at h2 ⊢
  generalize k / 2 = j
  interval_cases t
  · simp
  · have h1 : (2 * j + 1) / 2 = j := by omega
    have h3 : (2 * j + 1) % 2 = 1 := by omega
    rw [h1, h3]
    simp

theorem mem_column {n c k : ℕ} : k ∈ column n c ↔ ∃ j t, j < n ∧ t < 2 ∧ k = 2 * (c * n + j) + t := by
  unfold column
  simp only [List.mem_flatMap, List.mem_range, List.mem_cons, List.not_mem_nil, or_false]
  constructor
  · rintro ⟨j, hj, rfl | rfl⟩
    · exact ⟨j, 0, hj, by omega, rfl⟩
    · exact ⟨j, 1, hj, by omega, rfl⟩
  · rintro ⟨j, t, hj, ht, rfl⟩
    refine ⟨j, hj, ?_⟩
    interval_cases t
    · exact Or.inl rfl
    · exact Or.inr rfl

theorem column_nodup (n c : ℕ) : (column n c).Nodup := by
  rw [List.nodup_iff_getElem?_ne_getElem?]
  intro a b hab hb
  rw [column_length] at hb
  rw [column_get n c a (by omega), column_get n c b hb]
  intro h
  have := Option.some.inj h
  omega

/-- The mesh of `rectangular_periodic`: the diagonal mesh on the rectangle widened by one column on either side. -/
theorem periodic_mesh (mg n : ℕ) (hm : 0 < mg) (len1 len2 : K) (o : K × K) :
    (periodic mg n len1 len2 o).1 = rectangular (mg + 2) n (len1 / mg * ((mg + 2 : ℕ) : K)) len2 (o.1 - len1 / mg, o.2) := by
  rw [periodic_eq, rectangular_eq]
  have hm' : ((mg + 2 : ℕ) : K) ≠ 0 := by exact_mod_cast (by omega : mg + 2 ≠ 0)
  have hg : (mg : K) ≠ 0 := by exact_mod_cast hm.ne'
  have e2 : o.1 + -1 / (mg : K) * len1 = o.1 - len1 / mg := by field_simp; ring
  rw [mul_div_cancel_right₀ _ hm', e2]

theorem periodic_lists (mg n : ℕ) (len1 len2 : K) (o : K × K) :
    (periodic mg n len1 len2 o).2 = (column n 1 ++ column n mg, column n (mg + 1) ++ column n 0) := by
  rw [periodic_eq]
  simp only
  rw [picked_column (mg + 2) n 1 (by omega) (· == 1) (by simp), picked_column (mg + 2) n mg (by omega) (fun i => i + 2 == mg + 2) (by simp),
    picked_column (mg + 2) n (mg + 1) (by omega) (fun i => i + 1 == mg + 2) (by simp), picked_column (mg + 2) n 0 (by omega) (· == 0) (by simp)]
  rfl

/-- C64: `rectangular_periodic` triangulates the rectangle widened by one column of cells on the left and on the right, edge to edge, with the sides named. -/
theorem C64_periodic_mesh (mg n : ℕ) (hm : 0 < mg) (hn : 0 < n) (len1 len2 : K) (o : K × K) (h1 : 0 < len1) (h2 : 0 < len2) :
    let r := (periodic mg n len1 len2 o).1
    let w := len1 / mg
    Tiles r.points r.elems (o.1 - w, o.2) (w + len1 + w) len2 ∧ Conforming r.elems ∧
      Tagged r.points r.elems r.boundary (o.1 - w, o.2) (w + len1 + w) len2 ∧ PointsUsed r.points r.elems ∧
      Uniform r.points r.elems (len1 * len2 / (2 * (mg * n))) := by
  simp only
  rw [periodic_mesh mg n hm]
  have hw : len1 / mg * ((mg + 2 : ℕ) : K) = len1 / mg + len1 + len1 / mg := by
    have := cells mg hm len1
    push_cast
    linear_combination this
  have hp : 0 < len1 / mg * ((mg + 2 : ℕ) : K) := mul_pos (step_pos mg hm len1 h1) (by exact_mod_cast (by omega : 0 < mg + 2))
  obtain ⟨-, -, hu, ha⟩ := C64_diagonal_triangles (mg + 2) n (by omega) hn _ len2 (o.1 - len1 / mg, o.2) hp h2
  obtain ⟨hc, ht⟩ := C64_diagonal_boundary (mg + 2) n (by omega) hn _ len2 (o.1 - len1 / mg, o.2) hp h2
  have hl := C64_diagonal_tiles (mg + 2) n (by omega) hn _ len2 (o.1 - len1 / mg, o.2) hp h2
  have e : len1 / mg * ((mg + 2 : ℕ) : K) * len2 / (2 * (((mg + 2 : ℕ) : K) * n)) = len1 * len2 / (2 * (mg * n)) := by
    have hm' : ((mg + 2 : ℕ) : K) ≠ 0 := by exact_mod_cast (by omega : mg + 2 ≠ 0)
    have hg : (mg : K) ≠ 0 := by exact_mod_cast hm.ne'
    have hn' : (n : K) ≠ 0 := by exact_mod_cast hn.ne'
    field_simp
  simp only at ha hu hl ht
  rw [e] at ha
  rw [← hw]
  exact ⟨hl, hc, ht, hu, ha⟩

/-- C64: the triangles that receive values are exactly those outside the original rectangle, none twice; each of them is the copy, shifted by
the length of the rectangle, of the triangle at the same position in the list of senders, which lies inside. -/
theorem C64_periodic_exchange (mg n : ℕ) (hm : 0 < mg) (len1 len2 : K) (o : K × K) (h1 : 0 < len1) (h2 : 0 < len2) (hn : 0 < n) :
    let r := (periodic mg n len1 len2 o).1
    let send := (periodic mg n len1 len2 o).2.1
    let recv := (periodic mg n len1 len2 o).2.2
    send.length = recv.length ∧ recv.Nodup ∧
      (∀ (p s g : ℕ), send[p]? = some s → recv[p]? = some g → Shifted r.points r.elems len1 s g ∨ Shifted r.points r.elems (-len1) s g) ∧
      (∀ k < r.elems.length, k ∈ recv ↔ ∃ A B C, IsTri r.points r.elems k A B C ∧
        ((A.x ≤ o.1 ∧ B.x ≤ o.1 ∧ C.x ≤ o.1) ∨ (o.1 + len1 ≤ A.x ∧ o.1 + len1 ≤ B.x ∧ o.1 + len1 ≤ C.x))) ∧
      (∀ k ∈ send, ∃ A B C, IsTri r.points r.elems k A B C ∧ InRect o len1 len2 A ∧ InRect o len1 len2 B ∧ InRect o len1 len2 C) := by
  simp only
  rw [periodic_lists]
  have hr : (periodic mg n len1 len2 o).1 =
      ⟨rectPts (mg + 2) n (len1 / mg) (len2 / n) (o.1 - len1 / mg, o.2), rectElems (mg + 2) n, rectBdry (mg + 2) n⟩ := by
    rw [periodic_eq]
    have hg : (mg : K) ≠ 0 := by exact_mod_cast hm.ne'
    have e2 : o.1 + -1 / (mg : K) * len1 = o.1 - len1 / mg := by field_simp; ring
    rw [e2]
    rfl
  rw [hr]
  have hd1 := step_pos mg hm len1 h1
  have hd2 := step_pos n hn len2 h2
  have hcell := cells mg hm len1
  have hcell2 := cells n hn len2
  generalize hD1 : len1 / (mg : K) = d1 at hd1 hcell
  generalize hD2 : len2 / (n : K) = d2 at hd2 hcell2
  have tri : ∀ c j t, c < mg + 2 → j < n → t < 2 → IsTri (rectPts (mg + 2) n d1 d2 (o.1 - d1, o.2)) (rectElems (mg + 2) n) (2 * (c * n + j) + t)
      (gridPt d1 d2 (o.1 - d1, o.2) (c + qx (ra t), j + qy (ra t))) (gridPt d1 d2 (o.1 - d1, o.2) (c + qx (rb t), j + qy (rb t)))
      (gridPt d1 d2 (o.1 - d1, o.2) (c + qx (rc t), j + qy (rc t))) :=
    fun c j t hc hj ht => rect_isTri.mpr ⟨c, j, t, hc, hj, ht, rfl, rfl, rfl, rfl⟩
  have shift : ∀ c c' j t (dl : K), c < mg + 2 → c' < mg + 2 → j < n → t < 2 → d1 * (c' : K) = d1 * c + dl →
      Shifted (rectPts (mg + 2) n d1 d2 (o.1 - d1, o.2)) (rectElems (mg + 2) n) dl (2 * (c * n + j) + t) (2 * (c' * n + j) + t) := by
    intro c c' j t dl hc hc' hj ht hdl
    refine ⟨_, _, _, _, _, _, tri c j t hc hj ht, tri c' j t hc' hj ht, ?_, ?_, ?_⟩ <;>
    · simp only [gridPt, Pt.mk.injEq, and_true, Nat.cast_add]
      linear_combination hdl
  refine ⟨by simp [column_length], ?_, ?_, ?_, ?_⟩
  · rw [List.nodup_append']
    refine ⟨column_nodup _ _, column_nodup _ _, ?_⟩
    intro k hk hk'
    obtain ⟨j, t, hj, ht, rfl⟩ := mem_column.mp hk
    obtain ⟨j', t', hj', ht', e⟩ := mem_column.mp hk'
    have := rect_num_inj hj hj' ht ht' e
    omega
  · intro p s g hs hg
    by_cases hp : p < 2 * n
    · rw [List.getElem?_append_left (by rw [column_length]; exact hp), column_get n _ p hp] at hs hg
      obtain rfl := Option.some.inj hs
      obtain rfl := Option.some.inj hg
      refine Or.inl (shift 1 (mg + 1) (p / 2) (p % 2) len1 (by omega) (by omega) (by omega) (by omega) ?_)
      push_cast
      linear_combination hcell
    · have hlt : p < 4 * n := by
        have := (List.getElem?_eq_some_iff.mp hs).1
        simp only [List.length_append, column_length] at this
        omega
      rw [List.getElem?_append_right (by rw [column_length]; omega), column_length, column_get n _ (p - 2 * n) (by omega)] at hs hg
      obtain rfl := Option.some.inj hs
      obtain rfl := Option.some.inj hg
      refine Or.inr (shift mg 0 ((p - 2 * n) / 2) ((p - 2 * n) % 2) (-len1) (by omega) (by omega) (by omega) (by omega) ?_)
      push_cast
      linear_combination -hcell
  · intro k hk
    rw [rectElems_length] at hk
    obtain ⟨c, j, t, hc, hj, ht, rfl⟩ := rect_split hk
    rw [List.mem_append, mem_column, mem_column]
    constructor
    · rintro (⟨j', t', hj', ht', e⟩ | ⟨j', t', hj', ht', e⟩) <;> obtain ⟨rfl, rfl, rfl⟩ := rect_num_inj hj hj' ht ht' e
      · refine ⟨_, _, _, tri _ j t hc hj ht, Or.inr ⟨?_, ?_, ?_⟩⟩ <;>
        · simp only [gridPt, Nat.cast_add, Nat.cast_one]
          have : ∀ q : ℕ, 0 ≤ d1 * (q : K) := fun q => mul_nonneg hd1.le (Nat.cast_nonneg q)
          nlinarith [this (qx (ra t)), this (qx (rb t)), this (qx (rc t))]
      · have hq : ∀ q : ℕ, q ≤ 1 → d1 * ((q : ℕ) : K) ≤ d1 := by
          intro q hq
          have : (q : K) ≤ 1 := by exact_mod_cast hq
          nlinarith
        refine ⟨_, _, _, tri _ j t hc hj ht, Or.inl ⟨?_, ?_, ?_⟩⟩ <;> simp only [gridPt, zero_add]
        · linarith [hq _ (qx_le (ra t))]
        · linarith [hq _ (qx_le (rb t))]
        · linarith [hq _ (qx_le (rc t))]
    · rintro ⟨A, B, C, hT, hAB⟩
      obtain ⟨c', j', t', hc', hj', ht', e, rfl, rfl, rfl⟩ := rect_isTri.mp hT
      obtain ⟨rfl, rfl, rfl⟩ := rect_num_inj hj hj' ht ht' e
      simp only [gridPt, Nat.cast_add] at hAB
      have key : c = 0 ∨ c = mg + 1 := by
        by_contra hne
        push Not at hne
        have c1 : 1 ≤ c := by omega
        have c2 : c ≤ mg := by omega
        have c1' : (1 : K) ≤ c := by exact_mod_cast c1
        have c2' : (c : K) ≤ mg := by exact_mod_cast c2
        have m1 : d1 ≤ d1 * c := by nlinarith
        have m2 : d1 * c ≤ len1 := by nlinarith
        interval_cases t <;> simp only [ra, rb, rc, qx, Nat.cast_one, Nat.cast_zero, add_zero] at hAB <;>
        · rcases hAB with ⟨a, b, d⟩ | ⟨a, b, d⟩ <;> nlinarith
      rcases key with rfl | rfl
      · exact Or.inr ⟨j, t, hj, ht, rfl⟩
      · exact Or.inl ⟨j, t, hj, ht, rfl⟩
  · intro k hk
    have inr : ∀ c j t q, 1 ≤ c → c ≤ mg → j < n → InRect o len1 len2 (gridPt d1 d2 (o.1 - d1, o.2) (c + qx q, j + qy t)) := by
      intro c j t q c1 c2 hj
      have x1 : (1 : K) ≤ (c + qx q : ℕ) := by exact_mod_cast (by omega : 1 ≤ c + qx q)
      have x2 : ((c + qx q : ℕ) : K) ≤ mg + 1 := by exact_mod_cast (by have := qx_le q; omega : c + qx q ≤ mg + 1)
      have y1 : (0 : K) ≤ (j + qy t : ℕ) := Nat.cast_nonneg _
      have y2 : ((j + qy t : ℕ) : K) ≤ n := by exact_mod_cast (by have := qy_le t; omega : j + qy t ≤ n)
      refine ⟨?_, ?_, ?_, ?_⟩ <;> simp only [gridPt]
      · nlinarith
      · nlinarith
      · nlinarith
      · nlinarith
    rcases List.mem_append.mp hk with h | h <;> obtain ⟨j, t, hj, ht, rfl⟩ := mem_column.mp h
    · exact ⟨_, _, _, tri 1 j t (by omega) hj ht, inr 1 j _ _ (by omega) (by omega) hj, inr 1 j _ _ (by omega) (by omega) hj,
        inr 1 j _ _ (by omega) (by omega) hj⟩
    · exact ⟨_, _, _, tri mg j t (by omega) hj ht, inr mg j _ _ (by omega) (by omega) hj, inr mg j _ _ (by omega) (by omega) hj,
        inr mg j _ _ (by omega) (by omega) hj⟩

/-! ## Examples -/

example : (crossPython 2 1 (4 : ℚ) 2 (10, 20)).points =
      [⟨10, 20⟩, ⟨10, 22⟩, ⟨12, 20⟩, ⟨12, 22⟩, ⟨14, 20⟩, ⟨14, 22⟩, ⟨11, 21⟩, ⟨13, 21⟩] ∧
    (crossPython 2 1 (4 : ℚ) 2 (10, 20)).elems = [(0, 6, 1), (2, 6, 0), (3, 6, 2), (1, 6, 3), (2, 7, 3), (4, 7, 2), (5, 7, 4), (3, 7, 5)] ∧
    (crossPython 2 1 (4 : ℚ) 2 (10, 20)).boundary =
      [((0, 1), "left"), ((1, 1), "bottom"), ((3, 1), "top"), ((5, 1), "bottom"), ((6, 1), "right"), ((7, 1), "top")] := by
  refine ⟨by decide +kernel, by decide +kernel, by decide +kernel⟩

example : (rectangular 1 2 (1 : ℚ) 1 (0, 0)).elems = [(3, 4, 0), (1, 0, 4), (4, 5, 1), (2, 1, 5)] ∧
    (rectangular 1 2 (1 : ℚ) 1 (0, 0)).boundary =
      [((0, 2), "right"), ((0, 1), "bottom"), ((1, 2), "left"), ((2, 2), "right"), ((3, 2), "left"), ((3, 1), "top")] := by
  refine ⟨by decide +kernel, by decide +kernel⟩

example : (periodic 2 1 (2 : ℚ) 1 (0, 0)).2 = ([2, 3, 4, 5], [6, 7, 0, 1]) ∧
    (periodic 2 1 (2 : ℚ) 1 (0, 0)).1.points = [⟨-1, 0⟩, ⟨-1, 1⟩, ⟨0, 0⟩, ⟨0, 1⟩, ⟨1, 0⟩, ⟨1, 1⟩, ⟨2, 0⟩, ⟨2, 1⟩, ⟨3, 0⟩, ⟨3, 1⟩] := by
  refine ⟨by decide +kernel, by decide +kernel⟩

end Verif.Factory
