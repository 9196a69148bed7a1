import Verif.Polygon.PropsTwo

/-! # C50: the point-in-triangle test -/

namespace Verif.Polygon

set_option linter.unusedSectionVars false

variable {K : Type*} [Field K] [LinearOrder K] [IsStrictOrderedRing K]

/-- The triangle of three points as a closed set. -/
def InClosedTri (p a b c : Pt K) : Prop :=
  ∃ u v w, 0 ≤ u ∧ 0 ≤ v ∧ 0 ≤ w ∧ u + v + w = 1 ∧
    p.x = u * a.x + v * b.x + w * c.x ∧ p.y = u * a.y + v * b.y + w * c.y

theorem combo_lt {u v w p a b c : K} (hu : 0 ≤ u) (hv : 0 ≤ v) (hw : 0 ≤ w) (h1 : u + v + w = 1)
    (hp : p = u * a + v * b + w * c) : ¬ (p < a ∧ p < b ∧ p < c) := by
  rintro ⟨h2, h3, h4⟩
  have e : p = u * p + v * p + w * p := by rw [← add_mul, ← add_mul, h1, one_mul]
  have k1 := mul_le_mul_of_nonneg_left h2.le hu
  have k2 := mul_le_mul_of_nonneg_left h3.le hv
  have k3 := mul_le_mul_of_nonneg_left h4.le hw
  rcases hu.eq_or_lt with hu' | hu'
  · rcases hv.eq_or_lt with hv' | hv'
    · have hw' : 0 < w := by linarith
      have := mul_lt_mul_of_pos_left h4 hw'
      linarith
    · have := mul_lt_mul_of_pos_left h3 hv'
      linarith
  · have := mul_lt_mul_of_pos_left h2 hu'
    linarith

theorem combo_gt {u v w p a b c : K} (hu : 0 ≤ u) (hv : 0 ≤ v) (hw : 0 ≤ w) (h1 : u + v + w = 1)
    (hp : p = u * a + v * b + w * c) : ¬ (p > a ∧ p > b ∧ p > c) := by
  rintro ⟨h2, h3, h4⟩
  exact combo_lt (p := -p) (a := -a) (b := -b) (c := -c) hu hv hw h1 (by rw [hp]; ring) ⟨neg_lt_neg h2, neg_lt_neg h3, neg_lt_neg h4⟩

theorem onSeg_closed {p a b c : Pt K} (h : OnSeg p a b) : InClosedTri p a b c := by
  obtain ⟨t, t0, t1, hx, hy⟩ := h
  exact ⟨1 - t, t, 0, by linarith, t0, le_refl _, by ring, by rw [hx]; ring, by rw [hy]; ring⟩

theorem closed_cycle {p a b c : Pt K} (h : InClosedTri p b c a) : InClosedTri p a b c := by
  obtain ⟨u, v, w, hu, hv, hw, h1, hx, hy⟩ := h
  exact ⟨w, u, v, hw, hu, hv, by linarith, by linarith, by linarith⟩

theorem tri_quick {p t0 t1 t2 : Pt K} (h : InClosedTri p t0 t1 t2) :
    ¬ (p.x < t0.x ∧ p.x < t1.x ∧ p.x < t2.x) ∧ ¬ (p.x > t0.x ∧ p.x > t1.x ∧ p.x > t2.x) ∧
      ¬ (p.y < t0.y ∧ p.y < t1.y ∧ p.y < t2.y) ∧ ¬ (p.y > t0.y ∧ p.y > t1.y ∧ p.y > t2.y) := by
  obtain ⟨u, v, w, hu, hv, hw, h1, hx, hy⟩ := h
  exact ⟨combo_lt hu hv hw h1 hx, combo_gt hu hv hw h1 hx, combo_lt hu hv hw h1 hy, combo_gt hu hv hw h1 hy⟩

/-- Barycentric coordinates by the normal equations. -/
theorem bary_iff (p t0 t1 t2 : Pt K) (denom alpha beta : K)
    (hd : denom = ((t1.x - t0.x) * (t1.x - t0.x) + (t1.y - t0.y) * (t1.y - t0.y)) * ((t2.x - t0.x) * (t2.x - t0.x) + (t2.y - t0.y) * (t2.y - t0.y)) - ((t2.x - t0.x) * (t1.x - t0.x) + (t2.y - t0.y) * (t1.y - t0.y)) * ((t2.x - t0.x) * (t1.x - t0.x) + (t2.y - t0.y) * (t1.y - t0.y)))
    (ha : alpha = (((t2.x - t0.x) * (p.x - t0.x) + (t2.y - t0.y) * (p.y - t0.y)) * ((t1.x - t0.x) * (t1.x - t0.x) + (t1.y - t0.y) * (t1.y - t0.y)) - ((t1.x - t0.x) * (p.x - t0.x) + (t1.y - t0.y) * (p.y - t0.y)) * ((t2.x - t0.x) * (t1.x - t0.x) + (t2.y - t0.y) * (t1.y - t0.y))) / denom)
    (hb : beta = (((t1.x - t0.x) * (p.x - t0.x) + (t1.y - t0.y) * (p.y - t0.y)) * ((t2.x - t0.x) * (t2.x - t0.x) + (t2.y - t0.y) * (t2.y - t0.y)) - ((t2.x - t0.x) * (p.x - t0.x) + (t2.y - t0.y) * (p.y - t0.y)) * ((t2.x - t0.x) * (t1.x - t0.x) + (t2.y - t0.y) * (t1.y - t0.y))) / denom) :
    (|denom| > 0 ∧ alpha > 0 ∧ beta > 0 ∧ alpha + beta < 1) ↔ InTri p t0 t1 t2 := by
  have hsq : denom = ori t0 t1 t2 * ori t0 t1 t2 := by rw [hd]; unfold ori; ring
  have flat : Flat t0 t1 t2 ↔ ori t0 t1 t2 = 0 := by
    unfold Flat ori
    rw [sub_eq_zero]
  have hden : |denom| > 0 ↔ ori t0 t1 t2 ≠ 0 := by
    rw [gt_iff_lt, abs_pos, hsq]
    simp
  by_cases ho : ori t0 t1 t2 = 0
  · constructor
    · rintro ⟨h, -⟩
      exact absurd ho (hden.mp h)
    · rintro ⟨h, -⟩
      exact absurd (flat.mpr ho) h
  have hdn : denom ≠ 0 := by rw [hsq]; exact mul_ne_zero ho ho
  have ka : alpha * denom = ori t0 t1 p * ori t0 t1 t2 := by
    rw [ha, div_mul_cancel₀ _ hdn]; unfold ori; ring
  have kb : beta * denom = ori t2 t0 p * ori t0 t1 t2 := by
    rw [hb, div_mul_cancel₀ _ hdn]; unfold ori; ring
  have ka' : alpha * ori t0 t1 t2 = ori t0 t1 p := by
    apply mul_right_cancel₀ ho
    rw [← ka, hsq]; ring
  have kb' : beta * ori t0 t1 t2 = ori t2 t0 p := by
    apply mul_right_cancel₀ ho
    rw [← kb, hsq]; ring
  constructor
  · rintro ⟨-, h1, h2, h3⟩
    refine ⟨fun h => ho (flat.mp h), 1 - alpha - beta, beta, alpha, by linarith, h2, h1, by ring, ?_, ?_⟩
    · apply mul_right_cancel₀ ho
      have e : ((1 - alpha - beta) * t0.x + beta * t1.x + alpha * t2.x) * ori t0 t1 t2 =
        t0.x * ori t0 t1 t2 + (alpha * ori t0 t1 t2) * (t2.x - t0.x) + (beta * ori t0 t1 t2) * (t1.x - t0.x) := by ring
      rw [e, ka', kb']; unfold ori; ring
    · apply mul_right_cancel₀ ho
      have e : ((1 - alpha - beta) * t0.y + beta * t1.y + alpha * t2.y) * ori t0 t1 t2 =
        t0.y * ori t0 t1 t2 + (alpha * ori t0 t1 t2) * (t2.y - t0.y) + (beta * ori t0 t1 t2) * (t1.y - t0.y) := by ring
      rw [e, ka', kb']; unfold ori; ring
  · rintro ⟨-, u, v, w, hu, hv, hw, h1, hx, hy⟩
    have ea : alpha = w := by
      apply mul_right_cancel₀ ho
      rw [ka']
      have hu' : u = 1 - v - w := by linarith
      unfold ori
      rw [hx, hy, hu']; ring
    have eb : beta = v := by
      apply mul_right_cancel₀ ho
      rw [kb']
      have hu' : u = 1 - v - w := by linarith
      unfold ori
      rw [hx, hy, hu']; ring
    exact ⟨hden.mpr ho, by rw [ea]; exact hw, by rw [eb]; exact hv, by rw [ea, eb]; linarith⟩

theorem inTri_closed {p a b c : Pt K} (h : InTri p a b c) : InClosedTri p a b c := by
  obtain ⟨-, u, v, w, hu, hv, hw, h1, hx, hy⟩ := h
  exact ⟨u, v, w, hu.le, hv.le, hw.le, h1, hx, hy⟩

/-- **C50.** With `closed=False` the test is true exactly for the points strictly inside; a degenerate triangle has none. No
tolerance is involved. -/
theorem C50_open (sq : K → K) (rtol atol : K) (p t0 t1 t2 : Pt K) :
    isInsideTriangle sq false rtol atol p t0 t1 t2 = true ↔ InTri p t0 t1 t2 := by
  have key := bary_iff p t0 t1 t2 _ _ _ rfl rfl rfl
  constructor
  · intro h
    unfold isInsideTriangle at h
    simp only [Bool.false_eq_true, if_false] at h
    split_ifs at h with h1 h2 h3 h4 h5
    exact key.mp h5
  · intro h
    obtain ⟨h1, h2, h3, h4⟩ := tri_quick (inTri_closed h)
    unfold isInsideTriangle
    simp only
    rw [if_neg h1, if_neg h2, if_neg h3, if_neg h4, if_pos (key.mpr h)]

/-- **C50.** With `closed=True` every point strictly inside or on a side is accepted, also for degenerate triangles. -/
theorem C50_closed (sq : K → K) (hs : IsSqrt sq) (rtol atol : K) (hr : 0 ≤ rtol) (ha : 0 ≤ atol) (p t0 t1 t2 : Pt K)
    (h : InTri p t0 t1 t2 ∨ OnSeg p t0 t1 ∨ OnSeg p t1 t2 ∨ OnSeg p t2 t0) :
    isInsideTriangle sq true rtol atol p t0 t1 t2 = true := by
  have key := bary_iff p t0 t1 t2 _ _ _ rfl rfl rfl
  have hc : InClosedTri p t0 t1 t2 := by
    rcases h with h | h | h | h
    · exact inTri_closed h
    · exact onSeg_closed h
    · exact closed_cycle (onSeg_closed h)
    · exact closed_cycle (closed_cycle (onSeg_closed h))
  obtain ⟨h1, h2, h3, h4⟩ := tri_quick hc
  unfold isInsideTriangle
  simp only
  rw [if_neg h1, if_neg h2, if_neg h3, if_neg h4]
  split_ifs with h5
  · rfl
  · rcases h with h | h | h | h
    · exact absurd (key.mpr h) h5
    · rw [pointOnLine_of_onSeg hs hr ha h]; simp
    · rw [pointOnLine_of_onSeg hs hr ha h]; simp
    · rw [pointOnLine_of_onSeg hs hr ha h]; simp

/-- **C50.** With `closed=True` an accepted point lies inside or at a distance from a side of at most `rtol` times the length of
that side, up to `2e-15`. -/
theorem C50_accepted (sq : K → K) (hs : IsSqrt sq) (rtol atol : K) (p t0 t1 t2 : Pt K)
    (h : isInsideTriangle sq true rtol atol p t0 t1 t2 = true) :
    InTri p t0 t1 t2 ∨ ∃ a b, Side [t0, t1, t2] a b ∧ ∃ q, OnSeg q a b ∧
      (p.x - q.x) * (p.x - q.x) + (p.y - q.y) * (p.y - q.y) ≤
        rtol * rtol * ((b.x - a.x) * (b.x - a.x) + (b.y - a.y) * (b.y - a.y)) + margin * margin := by
  have key := bary_iff p t0 t1 t2 _ _ _ rfl rfl rfl
  unfold isInsideTriangle at h
  simp only [if_true] at h
  split_ifs at h with h1 h2 h3 h4 h5
  · exact Or.inl (key.mp h5)
  · right
    simp only [Bool.or_eq_true] at h
    rcases h with h | h | h
    · exact ⟨t0, t1, ⟨0, by simp, rfl, rfl⟩, near_of_pointOnLine_tol hs h⟩
    · exact ⟨t1, t2, ⟨1, by simp, rfl, rfl⟩, near_of_pointOnLine_tol hs h⟩
    · exact ⟨t2, t0, ⟨2, by simp, rfl, by simp⟩, near_of_pointOnLine_tol hs h⟩

/-- **C50.** The two tests offered by the library agree: away from the sides `is_inside_triangle` gives the same answer as
`is_inside_polygon` for the same three corners. -/
theorem C50_agrees_with_polygon_test (sq : K → K) (hs : IsSqrt sq) (rtol atol : K) (p t0 t1 t2 : Pt K)
    (h : Clear [t0, t1, t2] p) (closed : Bool) :
    isInsidePolygon sq closed p [t0, t1, t2] = some (isInsideTriangle sq false rtol atol p t0 t1 t2) := by
  have h1 := C18_triangle sq hs closed t0 t1 t2 p h
  have h2 := C50_open sq rtol atol p t0 t1 t2
  rw [isInside_eq] at h1 ⊢
  rw [Option.some.injEq] at h1 ⊢
  rw [Bool.eq_iff_iff, h1, h2]

example : isInsideTriangle (K := ℚ) id false (1 / 10 ^ 12) (1 / 10 ^ 12) ⟨1, 1⟩ ⟨0, 0⟩ ⟨4, 0⟩ ⟨0, 4⟩ = true := by decide +kernel

example : isInsideTriangle (K := ℚ) id false (1 / 10 ^ 12) (1 / 10 ^ 12) ⟨3, 3⟩ ⟨0, 0⟩ ⟨4, 0⟩ ⟨0, 4⟩ = false := by decide +kernel

example : isInsideTriangle Real.sqrt true (1 / 10 ^ 12) (1 / 10 ^ 12) ⟨2, 2⟩ ⟨0, 0⟩ ⟨4, 0⟩ ⟨0, 4⟩ = true :=
  C50_closed Real.sqrt isSqrt_real _ _ (by norm_num) (by norm_num) _ _ _ _
    (Or.inr (Or.inr (Or.inl ⟨1 / 2, by norm_num, by norm_num, by norm_num, by norm_num⟩)))

end Verif.Polygon
