import Verif.Polygon.Lemmas

/-! # C17, C18: inside and outside of polygons -/

namespace Verif.Polygon

set_option linter.unusedSectionVars false

variable {K : Type*} [Field K] [LinearOrder K] [IsStrictOrderedRing K]

/-! ## C17: the two-ended index array -/

/-- Contents of the index array after `n` items: inside indices from the front, outside indices from the back. -/
theorem fill_state (test : ℕ → Bool) (M n : ℕ) (h : n ≤ M) :
    (List.range n).foldl (fillStep test) ⟨List.replicate M 0, 0, (M : ℤ) - 1⟩ =
      ⟨(List.range n).filter test ++ List.replicate (M - n) 0 ++ ((List.range n).filter (fun k => !test k)).reverse,
        (((List.range n).filter test).length : ℤ),
        (M : ℤ) - 1 - (((List.range n).filter (fun k => !test k)).length : ℤ)⟩ := by
  induction n with
  | zero => simp
  | succ n ih =>
    have hlen : ((List.range n).filter test).length + ((List.range n).filter (fun k => !test k)).length = n := by
      have := List.length_eq_length_filter_add (l := List.range n) test
      rw [List.length_range] at this
      exact this.symm
    rw [List.range_succ, List.foldl_append, ih (by omega), List.foldl_cons, List.foldl_nil, List.filter_append,
      List.filter_append]
    obtain ⟨r, hr⟩ : ∃ r, M - n = r + 1 := ⟨M - n - 1, by omega⟩
    have hr' : M - (n + 1) = r := by omega
    rw [hr, hr']
    generalize (List.range n).filter test = A at *
    generalize (List.range n).filter (fun k => !test k) = B at *
    unfold fillStep
    by_cases ht : test n = true
    · simp only [ht, if_true, List.filter_cons_of_pos, List.filter_nil, Bool.not_true, Bool.false_eq_true,
        not_false_eq_true, List.filter_cons_of_neg, List.append_nil, List.length_append, List.length_cons, List.length_nil,
        Int.toNat_natCast]
      refine Fill.mk.injEq .. ▸ ⟨?_, by push_cast; ring, rfl⟩
      rw [List.append_assoc, List.set_append_right _ _ (le_refl _), Nat.sub_self, List.replicate_succ, List.cons_append,
        List.set_cons_zero]
      simp
    · simp only [Bool.not_eq_true] at ht
      simp only [ht, Bool.false_eq_true, if_false, not_false_eq_true, List.filter_cons_of_neg, List.filter_nil,
        Bool.not_false, List.filter_cons_of_pos, List.append_nil, List.length_append, List.length_cons, List.length_nil]
      refine Fill.mk.injEq .. ▸ ⟨?_, rfl, by push_cast; ring⟩
      have hpos : ((M : ℤ) - 1 - (B.length : ℤ)).toNat = A.length + r := by omega
      rw [hpos, List.append_assoc, List.set_append_right _ _ (by omega), Nat.add_sub_cancel_left, List.replicate_succ',
        List.append_assoc, List.set_append_right _ _ (by simp), List.length_replicate, Nat.sub_self]
      simp

theorem fill_eq (test : ℕ → Bool) (M : ℕ) :
    fill test M = ((List.range M).filter test ++ ((List.range M).filter (fun k => !test k)).reverse,
      ((List.range M).filter test).length) := by
  unfold fill
  rw [fill_state test M M (le_refl _)]
  simp

/-- Inside and outside lists of any two-ended classification. -/
theorem fill_lists (test : ℕ → Bool) (M : ℕ) :
    (fill test M).1.take (fill test M).2 = (List.range M).filter test ∧
      (fill test M).1.drop (fill test M).2 = ((List.range M).filter (fun k => !test k)).reverse := by
  rw [fill_eq]
  simp

theorem separate_in (sq : K → K) (closed : Bool) (pts poly : List (Pt K)) :
    insidePolygon sq closed pts poly = (List.range pts.length).filter (flagAt sq closed pts poly) := (fill_lists _ _).1

theorem separate_out (sq : K → K) (closed : Bool) (pts poly : List (Pt K)) :
    outsidePolygon sq closed pts poly = (List.range pts.length).filter (fun k => !flagAt sq closed pts poly k) := by
  unfold outsidePolygon separate
  simp only
  have h := fill_lists (flagAt sq closed pts poly) pts.length
  rw [h.2, List.reverse_reverse]
  split_ifs with hl
  · have := h.2
    rw [hl, List.drop_length] at this
    rw [← List.reverse_reverse ((List.range pts.length).filter _), ← this]
    rfl
  · rfl

/-- The single point test is the flag of the loop. -/
theorem isInside_eq (sq : K → K) (closed : Bool) (p : Pt K) (poly : List (Pt K)) :
    isInsidePolygon sq closed p poly = some (insideFlag sq closed poly p) := by
  unfold isInsidePolygon
  rw [separate_in]
  cases h : insideFlag sq closed poly p <;> simp [single, flagAt, h]

theorem isOutside_eq (sq : K → K) (closed : Bool) (p : Pt K) (poly : List (Pt K)) :
    isOutsidePolygon sq closed p poly = some (!insideFlag sq closed poly p) := by
  unfold isOutsidePolygon
  rw [separate_out]
  cases h : insideFlag sq closed poly p <;> simp [single, flagAt, h]

/-- **C17.** `inside_polygon` lists, in increasing order and without repetition, exactly the indices of the points for which
the single point test says inside. -/
theorem C17_inside (sq : K → K) (closed : Bool) (pts poly : List (Pt K)) :
    (insidePolygon sq closed pts poly).Pairwise (· < ·) ∧
      ∀ k, k ∈ insidePolygon sq closed pts poly ↔
        ∃ h : k < pts.length, isInsidePolygon sq closed pts[k] poly = some true := by
  rw [separate_in]
  refine ⟨(List.pairwise_lt_range).filter _, fun k => ?_⟩
  rw [List.mem_filter, List.mem_range]
  constructor
  · rintro ⟨h, h2⟩
    refine ⟨h, ?_⟩
    rw [isInside_eq]
    simpa [flagAt, List.getElem?_eq_getElem h] using h2
  · rintro ⟨h, h2⟩
    refine ⟨h, ?_⟩
    rw [isInside_eq] at h2
    simpa [flagAt, List.getElem?_eq_getElem h] using h2

/-- **C17.** `outside_polygon` lists exactly the other indices, also in increasing order; the two single point tests contradict
each other. -/
theorem C17_outside (sq : K → K) (closed : Bool) (pts poly : List (Pt K)) :
    (outsidePolygon sq closed pts poly).Pairwise (· < ·) ∧
      (∀ k, k ∈ outsidePolygon sq closed pts poly ↔ k < pts.length ∧ k ∉ insidePolygon sq closed pts poly) ∧
      (∀ p, isOutsidePolygon sq closed p poly = some true ↔ isInsidePolygon sq closed p poly = some false) ∧
      (∀ p, (isInsidePolygon sq closed p poly).isSome ∧ (isOutsidePolygon sq closed p poly).isSome) := by
  rw [separate_out, separate_in]
  refine ⟨(List.pairwise_lt_range).filter _, fun k => ?_, fun p => ?_, fun p => ?_⟩
  · rw [List.mem_filter, List.mem_filter, List.mem_range]
    constructor
    · rintro ⟨h, h2⟩
      refine ⟨h, fun h3 => ?_⟩
      rw [h3.2] at h2
      simp at h2
    · rintro ⟨h, h2⟩
      refine ⟨h, ?_⟩
      rw [Bool.not_eq_true', ← Bool.not_eq_true]
      exact fun h3 => h2 ⟨h, h3⟩
  · rw [isOutside_eq, isInside_eq]
    simp
  · rw [isOutside_eq, isInside_eq]
    simp

/-- **C17.** `in_and_outside_polygon` returns these two lists; together they contain every index once; the raw result of
`separate_points_by_polygon` holds the inside indices first and the outside indices, in decreasing order, after them. -/
theorem C17_both (sq : K → K) (closed : Bool) (pts poly : List (Pt K)) :
    inAndOutside sq closed pts poly = (insidePolygon sq closed pts poly, outsidePolygon sq closed pts poly) ∧
      (insidePolygon sq closed pts poly ++ outsidePolygon sq closed pts poly).Perm (List.range pts.length) ∧
      separate sq closed pts poly = (insidePolygon sq closed pts poly ++ (outsidePolygon sq closed pts poly).reverse,
        (insidePolygon sq closed pts poly).length) := by
  refine ⟨?_, ?_, ?_⟩
  · unfold inAndOutside insidePolygon outsidePolygon
    simp only
    split_ifs <;> rfl
  · rw [separate_in, separate_out]
    exact List.filter_append_perm _ _
  · rw [separate_in, separate_out]
    exact fill_eq _ _

/-- One point inside and one outside of a square. -/
example : inAndOutside (K := ℚ) id true [⟨3, 3⟩, ⟨1, 1⟩, ⟨5, 0⟩] [⟨0, 0⟩, ⟨2, 0⟩, ⟨2, 2⟩, ⟨0, 2⟩] = ([1], [0, 2]) := by
  decide +kernel

end Verif.Polygon
