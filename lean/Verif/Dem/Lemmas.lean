import Verif.Dem.Spec
import Mathlib.Tactic.Linarith
import Mathlib.Tactic.FieldSimp
import Mathlib.Tactic.LinearCombination

/-! # Helper lemmas for the raster export: geometry and the loop over triangles -/

set_option linter.unusedSectionVars false

namespace Verif.Dem

open Verif.Polygon Verif.Raster

variable {K : Type*} [Field K] [LinearOrder K] [IsStrictOrderedRing K]

theorem sq_le {sq : K → K} (hs : IsSqrt sq) {x y : K} (hx : 0 ≤ x) (hy : 0 ≤ y) : sq x ≤ sq y ↔ x ≤ y := by
  obtain ⟨a, b⟩ := hs x hx
  obtain ⟨c, d⟩ := hs y hy
  constructor
  · intro h
    have := mul_le_mul h h a c
    linarith
  · intro h
    by_contra hn
    push Not at hn
    have := mul_lt_mul'' hn hn c c
    linarith

theorem onLine_of_onSeg {sq : K → K} (hs : IsSqrt sq) {rtol atol : K} (hr : 0 ≤ rtol) (ha : 0 ≤ atol) {p a b : Pt K} (h : OnSeg p a b) :
    onLine sq rtol atol p a b = true := by
  obtain ⟨t, t0, t1, hx, hy⟩ := h
  have ex : p.x - a.x = t * (b.x - a.x) := by rw [hx]; ring
  have ey : p.y - a.y = t * (b.y - a.y) := by rw [hy]; ring
  unfold onLine
  simp only [ex, ey]
  have hden : 0 ≤ (b.x - a.x) * (b.x - a.x) + (b.y - a.y) * (b.y - a.y) := add_nonneg (mul_self_nonneg _) (mul_self_nonneg _)
  have h0 : t * (b.y - a.y) * (b.x - a.x) + -(t * (b.x - a.x)) * (b.y - a.y) = 0 := by ring
  have hd : t * (b.x - a.x) * (b.x - a.x) + t * (b.y - a.y) * (b.y - a.y) = t * ((b.x - a.x) * (b.x - a.x) + (b.y - a.y) * (b.y - a.y)) := by ring
  have hl : t * (b.x - a.x) * (t * (b.x - a.x)) + t * (b.y - a.y) * (t * (b.y - a.y)) =
      t * t * ((b.x - a.x) * (b.x - a.x) + (b.y - a.y) * (b.y - a.y)) := by ring
  rw [h0, hd, hl, abs_zero, zero_div]
  have htt : t * t ≤ 1 := by nlinarith
  have h2 : sq (t * t * ((b.x - a.x) * (b.x - a.x) + (b.y - a.y) * (b.y - a.y))) ≤ sq ((b.x - a.x) * (b.x - a.x) + (b.y - a.y) * (b.y - a.y)) := by
    rw [sq_le hs (mul_nonneg (mul_nonneg t0 t0) hden) hden]
    exact mul_le_of_le_one_left hden htt
  simp [h2, mul_nonneg t0 hden, hr, ha]

theorem beside_of_onLine {sq : K → K} (hs : IsSqrt sq) {p a b : Pt K} (h : onLine sq (1 / 10 ^ 12) (1 / 10 ^ 12) p a b = true) : Beside p a b := by
  unfold onLine at h
  simp only [Bool.and_eq_true, decide_eq_true_eq, ge_iff_le] at h
  obtain ⟨h1, h2, h3⟩ := h
  rw [sq_le hs (add_nonneg (mul_self_nonneg _) (mul_self_nonneg _)) (add_nonneg (mul_self_nonneg _) (mul_self_nonneg _))] at h3
  by_cases hD : (b.x - a.x) * (b.x - a.x) + (b.y - a.y) * (b.y - a.y) = 0
  · rw [hD] at h3
    have hx : (p.x - a.x) * (p.x - a.x) = 0 := le_antisymm (by linarith [mul_self_nonneg (p.y - a.y)]) (mul_self_nonneg _)
    have hy : (p.y - a.y) * (p.y - a.y) = 0 := le_antisymm (by linarith [mul_self_nonneg (p.x - a.x)]) (mul_self_nonneg _)
    exact ⟨a, ⟨0, le_refl _, zero_le_one, by ring, by ring⟩, by rw [hx, hy, hD]; simp⟩
  · rw [if_neg hD, decide_eq_true_eq] at h1
    have hpos : 0 < (b.x - a.x) * (b.x - a.x) + (b.y - a.y) * (b.y - a.y) :=
      lt_of_le_of_ne (add_nonneg (mul_self_nonneg _) (mul_self_nonneg _)) (Ne.symm hD)
    rw [div_le_iff₀ hpos] at h1
    set D := (b.x - a.x) * (b.x - a.x) + (b.y - a.y) * (b.y - a.y) with hDdef
    set s := (p.x - a.x) * (b.x - a.x) + (p.y - a.y) * (b.y - a.y) with hsdef
    set c := (p.y - a.y) * (b.x - a.x) + -(p.x - a.x) * (b.y - a.y) with hcdef
    have hlag : s * s + c * c = ((p.x - a.x) * (p.x - a.x) + (p.y - a.y) * (p.y - a.y)) * D := by rw [hsdef, hcdef, hDdef]; ring
    have hsD : s ≤ D := by
      by_contra hn
      push Not at hn
      have k1 : D * D < s * s := mul_lt_mul'' hn hn hpos.le hpos.le
      have k2 : ((p.x - a.x) * (p.x - a.x) + (p.y - a.y) * (p.y - a.y)) * D ≤ D * D := mul_le_mul_of_nonneg_right h3 hpos.le
      linarith [mul_self_nonneg c]
    refine ⟨⟨a.x + s / D * (b.x - a.x), a.y + s / D * (b.y - a.y)⟩, ⟨s / D, div_nonneg h2 hpos.le, (div_le_one hpos).2 hsD, rfl, rfl⟩, ?_⟩
    have e : (p.x - (a.x + s / D * (b.x - a.x))) * (p.x - (a.x + s / D * (b.x - a.x))) + (p.y - (a.y + s / D * (b.y - a.y))) * (p.y - (a.y + s / D * (b.y - a.y))) =
        c * c / D := by
      rw [eq_div_iff hD]
      have hq : s / D * D = s := div_mul_cancel₀ s hD
      have : ((p.x - (a.x + s / D * (b.x - a.x))) * (p.x - (a.x + s / D * (b.x - a.x))) + (p.y - (a.y + s / D * (b.y - a.y))) * (p.y - (a.y + s / D * (b.y - a.y)))) * D =
          ((p.x - a.x) * (p.x - a.x) + (p.y - a.y) * (p.y - a.y)) * D - 2 * (s / D * D) * s + (s / D * D) * (s / D * D) := by
        rw [hsdef, hDdef]; ring
      rw [this, hq, ← hlag]; ring
    show _ ≤ _
    simp only
    rw [e, div_le_iff₀ hpos]
    have hc := mul_le_mul h1 h1 (abs_nonneg _) (le_trans (abs_nonneg _) h1)
    rw [abs_mul_abs_self] at hc
    calc c * c ≤ _ := hc
      _ = _ := by ring

theorem closed_cases {p a b c : Pt K} (hf : ¬ Flat a b c) (h : InClosedTri p a b c) : InTri p a b c ∨ OnSeg p a b ∨ OnSeg p b c ∨ OnSeg p c a := by
  obtain ⟨u, v, w, hu, hv, hw, h1, hx, hy⟩ := h
  rcases hu.eq_or_lt with h0 | hu'
  · right; right; left
    exact ⟨w, hw, by linarith, by rw [hx, ← h0, show v = 1 - w by linarith]; ring, by rw [hy, ← h0, show v = 1 - w by linarith]; ring⟩
  · rcases hv.eq_or_lt with h0 | hv'
    · right; right; right
      exact ⟨u, hu, by linarith, by rw [hx, ← h0, show w = 1 - u by linarith]; ring, by rw [hy, ← h0, show w = 1 - u by linarith]; ring⟩
    · rcases hw.eq_or_lt with h0 | hw'
      · right; left
        exact ⟨v, hv, by linarith, by rw [hx, ← h0, show u = 1 - v by linarith]; ring, by rw [hy, ← h0, show u = 1 - v by linarith]; ring⟩
      · exact Or.inl ⟨hf, u, v, w, hu', hv', hw', h1, hx, hy⟩

theorem insideTri_of {sq : K → K} (hs : IsSqrt sq) {rtol atol : K} (hr : 0 ≤ rtol) (ha : 0 ≤ atol) {p t0 t1 t2 : Pt K} (hf : ¬ Flat t0 t1 t2)
    (hc : InClosedTri p t0 t1 t2) : insideTri sq rtol atol p t0 t1 t2 = true := by
  have key := bary_iff p t0 t1 t2 _ _ _ rfl rfl rfl
  obtain ⟨h1, h2, h3, h4⟩ := tri_quick hc
  unfold insideTri
  simp only
  rw [if_neg h1, if_neg h2, if_neg h3, if_neg h4]
  split_ifs with h5
  · rfl
  · rcases closed_cases hf hc with h | h | h | h
    · exact absurd (key.mpr h) h5
    · rw [onLine_of_onSeg hs hr ha h]; simp
    · rw [onLine_of_onSeg hs hr ha h]; simp
    · rw [onLine_of_onSeg hs hr ha h]; simp

theorem touches_of {sq : K → K} (hs : IsSqrt sq) {t : Tri K} {p : Pt K} (h : covers sq t p = true) : Touches p t.a t.b t.c := by
  have key := bary_iff p t.a t.b t.c _ _ _ rfl rfl rfl
  unfold covers insideTri at h
  simp only at h
  split_ifs at h with h1 h2 h3 h4 h5
  · exact Or.inl (key.mp h5)
  · right
    simp only [Bool.or_eq_true] at h
    rcases h with h | h | h
    · exact Or.inl (beside_of_onLine hs h)
    · exact Or.inr (Or.inl (beside_of_onLine hs h))
    · exact Or.inr (Or.inr (beside_of_onLine hs h))

theorem covers_of {sq : K → K} (hs : IsSqrt sq) {t : Tri K} {p : Pt K} (hf : ¬ Flat t.a t.b t.c) (h : InClosedTri p t.a t.b t.c) : covers sq t p = true :=
  insideTri_of hs (by positivity) (by positivity) hf h

/-- The test accepts only points inside the bounding box. -/
theorem covers_box {sq : K → K} {t : Tri K} {p : Pt K} (h : covers sq t p = true) :
    (min t.a.x (min t.b.x t.c.x) ≤ p.x ∧ p.x ≤ max t.a.x (max t.b.x t.c.x)) ∧ (min t.a.y (min t.b.y t.c.y) ≤ p.y ∧ p.y ≤ max t.a.y (max t.b.y t.c.y)) := by
  unfold covers insideTri at h
  simp only at h
  split_ifs at h with h1 h2 h3 h4 h5 <;>
  · refine ⟨⟨?_, ?_⟩, ?_, ?_⟩
    · by_contra hn; rw [not_le, lt_min_iff, lt_min_iff] at hn; exact h1 hn
    · by_contra hn; rw [not_le, max_lt_iff, max_lt_iff] at hn; exact h2 hn
    · by_contra hn; rw [not_le, lt_min_iff, lt_min_iff] at hn; exact h3 hn
    · by_contra hn; rw [not_le, max_lt_iff, max_lt_iff] at hn; exact h4 hn

/-- Twice the signed area. -/
def det (p a b : Pt K) : K := (p.x - a.x) * (b.y - a.y) - (p.y - a.y) * (b.x - a.x)

theorem sigma_eq {sq : K → K} (hs : IsSqrt sq) {p v u w : Pt K} (h : det v u w ≠ 0) : sigma p v u (normal sq u w) = det p u w / det v u w := by
  unfold sigma normal
  simp only
  by_cases hl : sq ((w.x - u.x) * (w.x - u.x) + (w.y - u.y) * (w.y - u.y)) ≠ 0
  · rw [if_pos hl]
    set l := sq ((w.x - u.x) * (w.x - u.x) + (w.y - u.y) * (w.y - u.y))
    have e1 : ∀ z : Pt K, (z.x - u.x) * ((w.y - u.y) / l) + (z.y - u.y) * -((w.x - u.x) / l) = det z u w / l := by
      intro z; unfold det; field_simp; ring
    rw [e1, e1, if_pos (div_ne_zero h hl)]
    field_simp
  · exfalso
    push Not at hl
    have h2 := (hs ((w.x - u.x) * (w.x - u.x) + (w.y - u.y) * (w.y - u.y)) (add_nonneg (mul_self_nonneg _) (mul_self_nonneg _))).2
    rw [hl, mul_zero] at h2
    have hx : (w.x - u.x) * (w.x - u.x) = 0 := le_antisymm (by linarith [mul_self_nonneg (w.y - u.y)]) (mul_self_nonneg _)
    have hy : (w.y - u.y) * (w.y - u.y) = 0 := le_antisymm (by linarith [mul_self_nonneg (w.x - u.x)]) (mul_self_nonneg _)
    apply h
    unfold det
    rw [mul_self_eq_zero.1 hx, mul_self_eq_zero.1 hy]; ring

theorem interp_eq {sq : K → K} (hs : IsSqrt sq) {t : Tri K} (hf : ¬ Flat t.a t.b t.c) (p : Pt K) :
    interp sq t p = (det p t.b t.c * t.va + det p t.c t.a * t.vb + det p t.a t.b * t.vc) / det t.a t.b t.c := by
  have d1 : det t.a t.b t.c ≠ 0 := by
    intro h; apply hf; unfold Flat; unfold det at h; linear_combination -h
  have e2 : det t.b t.c t.a = det t.a t.b t.c := by unfold det; ring
  have e3 : det t.c t.a t.b = det t.a t.b t.c := by unfold det; ring
  unfold interp
  rw [sigma_eq hs d1, sigma_eq hs (by rw [e2]; exact d1), sigma_eq hs (by rw [e3]; exact d1), e2, e3]
  field_simp

/-- The interpolant is linear with the given corner values. -/
theorem interp_linear {sq : K → K} (hs : IsSqrt sq) {t : Tri K} (hf : ¬ Flat t.a t.b t.c) (p : Pt K) :
    Linear p t.a t.b t.c t.va t.vb t.vc (interp sq t p) := by
  have d1 : det t.a t.b t.c ≠ 0 := by
    intro h; apply hf; unfold Flat; unfold det at h; linear_combination -h
  refine ⟨interp sq t ⟨0, 0⟩, interp sq t ⟨1, 0⟩ - interp sq t ⟨0, 0⟩, interp sq t ⟨0, 1⟩ - interp sq t ⟨0, 0⟩, ?_, ?_, ?_, ?_⟩ <;>
  · simp only [interp_eq hs hf]
    field_simp
    unfold det
    ring

theorem linear_unique {p a b c : Pt K} (hf : ¬ Flat a b c) {va vb vc v v' : K} (h : Linear p a b c va vb vc v) (h' : Linear p a b c va vb vc v') : v = v' := by
  obtain ⟨A, B, C, ea, eb, ec, e⟩ := h
  obtain ⟨A', B', C', ea', eb', ec', e'⟩ := h'
  have hd : (b.x - a.x) * (c.y - a.y) - (b.y - a.y) * (c.x - a.x) ≠ 0 := fun hz => hf (by unfold Flat; linear_combination hz)
  have hB : B = B' := by
    apply mul_right_cancel₀ hd
    linear_combination (c.y - a.y) * (eb' - eb - ea' + ea) - (b.y - a.y) * (ec' - ec - ea' + ea)
  have hC : C = C' := by
    apply mul_right_cancel₀ hd
    linear_combination (b.x - a.x) * (ec' - ec - ea' + ea) - (c.x - a.x) * (eb' - eb - ea' + ea)
  subst hB hC
  rw [e, e']
  linarith

theorem trunc_le [FloorRing K] {v : K} {k : ℕ} (h : v ≤ (k : K)) : trunc v ≤ (k : ℤ) := by
  unfold trunc
  split_ifs with h0
  · have : ⌊v⌋ ≤ ⌊((k : ℤ) : K)⌋ := Int.floor_le_floor (by push_cast; exact h)
    rwa [Int.floor_intCast] at this
  · exact Int.ceil_le.2 (by push_cast; exact h)

theorem le_trunc [FloorRing K] {v : K} {k : ℕ} (h : (k : K) ≤ v) : (k : ℤ) ≤ trunc v := by
  unfold trunc
  rw [if_pos (le_trans (Nat.cast_nonneg k) h)]
  exact Int.le_floor.2 (by push_cast; exact h)

theorem mem_upto {r : ℤ × ℤ} (h0 : 0 ≤ r.1) {k : ℕ} : k ∈ upto r ↔ r.1 ≤ k ∧ (k : ℤ) ≤ r.2 := by
  unfold upto
  rw [List.mem_range'_1]
  omega

theorem span_first [FloorRing K] (u v w cell : K) (n : ℕ) : 0 ≤ (span u v w cell n).1 := by
  unfold span
  simp only
  split_ifs <;> omega

theorem span_last [FloorRing K] (u v w cell : K) (n : ℕ) : (span u v w cell n).2 ≤ (n : ℤ) - 1 := by
  unfold span
  simp only
  split_ifs <;> omega

/-- The range of indices visited includes all grid lines across the triangle. -/
theorem mem_span [FloorRing K] {u v w cell : K} {n k : ℕ} (hc : 0 < cell) (hk : k < n) (h1 : min u (min v w) ≤ (k : K) * cell)
    (h2 : (k : K) * cell ≤ max u (max v w)) : k ∈ upto (span u v w cell n) := by
  rw [mem_upto (span_first _ _ _ _ _)]
  have a := trunc_le (v := min u (min v w) / cell) (k := k) ((div_le_iff₀ hc).2 h1)
  have b := le_trunc (v := |max u (max v w)| / cell) (k := k) ((le_div_iff₀ hc).2 (le_trans h2 (le_abs_self _)))
  unfold span
  simp only
  constructor <;> split_ifs <;> omega

theorem fold_set (acc : ℕ × ℕ → Bool) (val : ℕ × ℕ → K) (ncol : ℕ) (l : List (ℕ × ℕ)) (hl : ∀ q ∈ l, q.2 < ncol) (g : List K)
    {jk : ℕ × ℕ} (hk : jk.2 < ncol) (hi : jk.1 * ncol + jk.2 < g.length) :
    (l.foldl (fun g (q : ℕ × ℕ) => if acc q then g.set (q.1 * ncol + q.2) (val q) else g) g)[jk.1 * ncol + jk.2]? =
      if jk ∈ l ∧ acc jk = true then some (val jk) else g[jk.1 * ncol + jk.2]? := by
  induction l generalizing g with
  | nil => simp
  | cons q l ih =>
    rw [List.foldl_cons]
    have hlen : (if acc q then g.set (q.1 * ncol + q.2) (val q) else g).length = g.length := by split_ifs <;> simp
    rw [ih (fun a ha => hl a (List.mem_cons_of_mem _ ha)) _ (by rw [hlen]; exact hi)]
    by_cases h1 : jk ∈ l ∧ acc jk = true
    · rw [if_pos h1, if_pos ⟨List.mem_cons_of_mem _ h1.1, h1.2⟩]
    · rw [if_neg h1]
      by_cases hq : jk = q
      · subst hq
        by_cases ha : acc jk = true
        · rw [if_pos ha, if_pos ⟨List.mem_cons_self, ha⟩, List.getElem?_set_self hi]
        · rw [if_neg ha, if_neg (fun h => ha h.2)]
      · have h2 : ¬ (jk ∈ q :: l ∧ acc jk = true) := by
          rintro ⟨hm, ha⟩
          rcases List.mem_cons.1 hm with h | h
          · exact hq h
          · exact h1 ⟨h, ha⟩
        rw [if_neg h2]
        split_ifs with ha
        · rw [List.getElem?_set_ne]
          intro he
          apply hq
          have hqn := hl q List.mem_cons_self
          have e1 : q.2 = jk.2 := by
            have := congrArg (· % ncol) he
            simpa [Nat.mul_add_mod', Nat.mod_eq_of_lt hk, Nat.mod_eq_of_lt hqn] using this
          have e2 : q.1 = jk.1 := by
            rw [e1] at he
            have : q.1 * ncol = jk.1 * ncol := by omega
            exact Nat.eq_of_mul_eq_mul_right (by omega) this
          exact (Prod.ext e2 e1).symm
        · rfl

theorem fold_set_length (acc : ℕ × ℕ → Bool) (val : ℕ × ℕ → K) (ncol : ℕ) (l : List (ℕ × ℕ)) (g : List K) :
    (l.foldl (fun g (q : ℕ × ℕ) => if acc q then g.set (q.1 * ncol + q.2) (val q) else g) g).length = g.length := by
  induction l generalizing g with
  | nil => rfl
  | cons q l ih => rw [List.foldl_cons, ih]; split_ifs <;> simp

theorem stamp_length [FloorRing K] (sq : K → K) (cell : K) (nrow ncol : ℕ) (g : List K) (t : Tri K) : (stamp sq cell nrow ncol g t).length = g.length := by
  unfold stamp
  simp only
  split_ifs
  · exact fold_set_length (fun q => covers sq t (node cell q.1 q.2)) _ _ _ _
  · rfl

theorem stamp_get [FloorRing K] (sq : K → K) {cell : K} (hc : 0 < cell) {nrow ncol : ℕ} {g : List K} (hg : g.length = nrow * ncol) (t : Tri K)
    {j k : ℕ} (hj : j < nrow) (hk : k < ncol) :
    (stamp sq cell nrow ncol g t)[j * ncol + k]? =
      if covers sq t (node cell j k) then some (interp sq t (node cell j k)) else g[j * ncol + k]? := by
  have hi : j * ncol + k < g.length := by
    rw [hg]
    calc j * ncol + k < j * ncol + ncol := by omega
      _ = (j + 1) * ncol := by ring
      _ ≤ nrow * ncol := Nat.mul_le_mul_right _ hj
  have key : covers sq t (node cell j k) = true → k ∈ upto (span t.a.x t.b.x t.c.x cell ncol) ∧ j ∈ upto (span t.a.y t.b.y t.c.y cell nrow) := by
    intro h
    obtain ⟨⟨h1, h2⟩, h3, h4⟩ := covers_box h
    exact ⟨mem_span hc hk h1 h2, mem_span hc hj h3 h4⟩
  unfold stamp
  simp only
  split_ifs with h1 h2 h2
  · rw [fold_set (fun q => covers sq t (node cell q.1 q.2)) (fun q => interp sq t (node cell q.1 q.2)) ncol _ ?_ g (jk := (j, k)) hk hi]
    · rw [if_pos]
      refine ⟨?_, h2⟩
      rw [List.mem_flatMap]
      exact ⟨j, (key h2).2, List.mem_map.2 ⟨k, (key h2).1, rfl⟩⟩
    · intro q hq
      obtain ⟨j', _, hq⟩ := List.mem_flatMap.1 hq
      obtain ⟨k', hk', rfl⟩ := List.mem_map.1 hq
      have := (mem_upto (span_first _ _ _ _ _)).1 hk'
      have := span_last t.a.x t.b.x t.c.x cell ncol
      simp only
      omega
  · rw [fold_set (fun q => covers sq t (node cell q.1 q.2)) (fun q => interp sq t (node cell q.1 q.2)) ncol _ ?_ g (jk := (j, k)) hk hi]
    · rw [if_neg (fun h => h2 h.2)]
    · intro q hq
      obtain ⟨j', _, hq⟩ := List.mem_flatMap.1 hq
      obtain ⟨k', hk', rfl⟩ := List.mem_map.1 hq
      have := (mem_upto (span_first _ _ _ _ _)).1 hk'
      have := span_last t.a.x t.b.x t.c.x cell ncol
      simp only
      omega
  · exfalso
    apply h1
    have a := (mem_upto (span_first _ _ _ _ _)).1 (key h2).1
    have b := (mem_upto (span_first _ _ _ _ _)).1 (key h2).2
    omega
  · rfl

/-- The value at a grid point: the last triangle that covers it, else missing. -/
theorem grid_get [FloorRing K] (sq : K → K) {cell : K} (hc : 0 < cell) (nodata : K) {nrow ncol : ℕ} (ts : List (Tri K)) {j k : ℕ} (hj : j < nrow) (hk : k < ncol) :
    ∃ v, (gridValues sq cell nodata nrow ncol ts)[j * ncol + k]? = some v ∧
      ((∃ t ∈ ts, covers sq t (node cell j k) = true ∧ v = interp sq t (node cell j k)) ∨ (v = nodata ∧ ∀ t ∈ ts, covers sq t (node cell j k) = false)) := by
  have hi : j * ncol + k < nrow * ncol := by
    calc j * ncol + k < j * ncol + ncol := by omega
      _ = (j + 1) * ncol := by ring
      _ ≤ nrow * ncol := Nat.mul_le_mul_right _ hj
  suffices H : ∀ (ts : List (Tri K)) (g : List K) (v0 : K), g.length = nrow * ncol → g[j * ncol + k]? = some v0 →
      ∃ v, (ts.foldl (stamp sq cell nrow ncol) g)[j * ncol + k]? = some v ∧
      ((∃ t ∈ ts, covers sq t (node cell j k) = true ∧ v = interp sq t (node cell j k)) ∨ (v = v0 ∧ ∀ t ∈ ts, covers sq t (node cell j k) = false)) by
    refine H ts _ nodata (List.length_replicate ..) ?_
    rw [List.getElem?_replicate, if_pos hi]
  intro ts
  induction ts with
  | nil => intro g v0 _ h; exact ⟨v0, h, Or.inr ⟨rfl, by simp⟩⟩
  | cons t ts ih =>
    intro g v0 hg h
    rw [List.foldl_cons]
    have hs := stamp_get sq hc hg t hj hk
    by_cases ht : covers sq t (node cell j k) = true
    · rw [if_pos ht] at hs
      obtain ⟨v, e, hv⟩ := ih _ _ (by rw [stamp_length]; exact hg) hs
      refine ⟨v, e, Or.inl ?_⟩
      rcases hv with ⟨t', h1, h2⟩ | ⟨h1, h2⟩
      · exact ⟨t', List.mem_cons_of_mem _ h1, h2⟩
      · exact ⟨t, List.mem_cons_self, ht, h1⟩
    · rw [if_neg ht, h] at hs
      obtain ⟨v, e, hv⟩ := ih _ _ (by rw [stamp_length]; exact hg) hs
      refine ⟨v, e, ?_⟩
      rcases hv with ⟨t', h1, h2⟩ | ⟨h1, h2⟩
      · exact Or.inl ⟨t', List.mem_cons_of_mem _ h1, h2⟩
      · refine Or.inr ⟨h1, ?_⟩
        intro t' ht'
        rcases List.mem_cons.1 ht' with rfl | h3
        · simpa using ht
        · exact h2 t' h3

theorem grid_length [FloorRing K] (sq : K → K) (cell nodata : K) (nrow ncol : ℕ) (ts : List (Tri K)) : (gridValues sq cell nodata nrow ncol ts).length = nrow * ncol := by
  unfold gridValues
  suffices H : ∀ (ts : List (Tri K)) (g : List K), (ts.foldl (stamp sq cell nrow ncol) g).length = g.length by
    rw [H, List.length_replicate]
  intro ts
  induction ts with
  | nil => intro g; rfl
  | cons t ts ih => intro g; rw [List.foldl_cons, ih, stamp_length]

end Verif.Dem
