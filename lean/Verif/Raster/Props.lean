import Verif.Raster.Lemmas

/-!
# C79: interpolation from rasters
-/

set_option linter.unusedSectionVars false

namespace Verif.Raster

variable {K : Type*} [Field K] [LinearOrder K] [IsStrictOrderedRing K]

theorem in_length {x : List K} {i : ℕ} {a b p : K} (h : In x i a b p) : i + 1 < x.length := by
  rcases Nat.lt_or_ge (i + 1) x.length with h' | h'
  · exact h'
  · have := h.2.1
    rw [List.getElem?_eq_none h'] at this; cases this

theorem in_lt {x : List K} (hx : Lines x) {i : ℕ} {a b p : K} (h : In x i a b p) : a < b := by
  rw [← getD_of h.1, ← getD_of h.2.1]
  exact lt_of_lt hx.2 (by omega) (in_length h)

/-- Every coordinate between the first and the last grid line lies in some interval. -/
theorem exists_in {x : List K} (hx : Lines x) {p : K} (h0 : x.headD 0 ≤ p) (h1 : p ≤ x.getLastD 0) : ∃ i a b, In x i a b p := by
  have hne : x ≠ [] := by rintro rfl; have := hx.1; simp at this
  obtain ⟨b1, b2, b3⟩ := bracket hne h0 h1
  have hl := hx.1
  rcases b3 with ⟨b3, b4⟩ | ⟨b3, b4⟩
  · refine ⟨0, x.getD 0 0, x.getD 1 0, ?_, ?_, b4.ge, ?_⟩
    · rw [List.getD_eq_getElem _ _ (by omega), List.getElem?_eq_getElem (by omega)]
    · rw [List.getD_eq_getElem _ _ (by omega), List.getElem?_eq_getElem (by omega)]
    · rw [b4]; exact (lt_of_lt hx.2 (by omega) (by omega)).le
  · refine ⟨searchsorted x p - 1, _, x.getD (searchsorted x p) 0, ?_, ?_, b4.le, b2⟩
    · rw [List.getD_eq_getElem _ _ (by omega), List.getElem?_eq_getElem (by omega)]
    · rw [Nat.sub_add_cancel b3, List.getD_eq_getElem _ _ b1, List.getElem?_eq_getElem b1]

/-- The blend with four weights. -/
def blend (a b z00 z10 z01 z11 : K) : K := (1 - a) * (1 - b) * z00 + a * (1 - b) * z10 + (1 - a) * b * z01 + a * b * z11

theorem linear_eq {x y : List K} {Z : List (List (Option K))} {p q a b z00 z10 z01 z11 : K} (ha : weight x p = some a) (hb : weight y q = some b)
    (h00 : entry Z (before x.length (searchsorted x p)) (before y.length (searchsorted y q)) = some z00)
    (h10 : entry Z (searchsorted x p) (before y.length (searchsorted y q)) = some z10)
    (h01 : entry Z (before x.length (searchsorted x p)) (searchsorted y q) = some z01)
    (h11 : entry Z (searchsorted x p) (searchsorted y q) = some z11) :
    inner x y Z .linear p q = some (blend a b z00 z10 z01 z11) := by
  unfold inner
  simp only [ha, hb, h00, h10, h01, h11]
  show some _ = some _
  congr 1
  unfold blend
  ring

/-- **C79.** On a complete grid the result at any point of the grid is the bilinear function on each cell that contains the point. -/
theorem C79_bilinear {x y : List K} (hx : Lines x) (hy : Lines y) {Z : List (List (Option K))} {f : ℕ → ℕ → K}
    (hZ : ∀ i < x.length, ∀ j < y.length, Stored Z i j (some (f i j))) {i j : ℕ} {x0 x1 y0 y1 p q : K} (hi : In x i x0 x1 p) (hj : In y j y0 y1 q) :
    value x y Z .linear (some p, some q) = some (bilin x0 x1 y0 y1 (f i j) (f (i + 1) j) (f i (j + 1)) (f (i + 1) (j + 1)) p q) := by
  rw [value_inside hx hy Z _ hi hj]
  have hE : ∀ a < x.length, ∀ b < y.length, entry Z a b = some (f a b) := fun a ha b hb => entry_of (hZ a ha b hb)
  have li := in_length hi
  have lj := in_length hj
  have dx := in_lt hx hi
  have dy := in_lt hy hj
  have hxr : searchsorted x p < x.length := by rcases axis hx hi with h | h <;> omega
  have hyr : searchsorted y q < y.length := by rcases axis hy hj with h | h <;> omega
  have hxb := before_lt hxr
  have hyb := before_lt hyr
  have nx : x1 - x0 ≠ 0 := sub_ne_zero.mpr dx.ne'
  have ny : y1 - y0 ≠ 0 := sub_ne_zero.mpr dy.ne'
  obtain ⟨a, ha⟩ : ∃ a, weight x p = some a := by rcases axis hx hi with h | h; exacts [⟨_, h.2.2.1⟩, ⟨_, h.2.1⟩]
  obtain ⟨b, hb⟩ : ∃ b, weight y q = some b := by rcases axis hy hj with h | h; exacts [⟨_, h.2.2.1⟩, ⟨_, h.2.1⟩]
  rw [linear_eq ha hb (hE _ hxb _ hyb) (hE _ hxr _ hyb) (hE _ hxb _ hyr) (hE _ hxr _ hyr)]
  congr 1
  unfold blend bilin
  rcases axis hx hi with ⟨r1, r2, r3, -⟩ | ⟨r1, r2, r3⟩ <;> rcases axis hy hj with ⟨s1, s2, s3, -⟩ | ⟨s1, s2, s3⟩
  · rw [r3] at ha; rw [s3] at hb
    obtain rfl := Option.some.inj ha
    obtain rfl := Option.some.inj hb
    rw [r2, r1, s2, s1]
    field_simp
    ring
  · rw [r3] at ha; rw [s2] at hb
    obtain rfl := Option.some.inj ha
    obtain rfl := Option.some.inj hb
    rw [r2, r1, s1, s3]
    field_simp
    ring
  · rw [r2] at ha; rw [s3] at hb
    obtain rfl := Option.some.inj ha
    obtain rfl := Option.some.inj hb
    rw [r1, s2, s1, r3]
    field_simp
    ring
  · rw [r2] at ha; rw [s2] at hb
    obtain rfl := Option.some.inj ha
    obtain rfl := Option.some.inj hb
    rw [r1, s1, r3, s3]
    field_simp
    ring

/-- **C79.** Data that are bilinear in the coordinates, in particular planes, are reproduced at every point of the grid, whatever the spacing. -/
theorem C79_exact {x y : List K} (hx : Lines x) (hy : Lines y) {Z : List (List (Option K))} (A B C D : K)
    (hZ : ∀ (i j : ℕ) (u v : K), x[i]? = some u → y[j]? = some v → Stored Z i j (some (A + B * u + C * v + D * u * v))) {p q : K}
    (hp : x.headD 0 ≤ p ∧ p ≤ x.getLastD 0) (hq : y.headD 0 ≤ q ∧ q ≤ y.getLastD 0) :
    value x y Z .linear (some p, some q) = some (A + B * p + C * q + D * p * q) := by
  obtain ⟨i, x0, x1, hi⟩ := exists_in hx hp.1 hp.2
  obtain ⟨j, y0, y1, hj⟩ := exists_in hy hq.1 hq.2
  have hZ' : ∀ i < x.length, ∀ j < y.length, Stored Z i j (some (A + B * x.getD i 0 + C * y.getD j 0 + D * x.getD i 0 * y.getD j 0)) := by
    intro i hi j hj
    refine hZ i j _ _ ?_ ?_
    · rw [List.getD_eq_getElem _ _ hi, List.getElem?_eq_getElem hi]
    · rw [List.getD_eq_getElem _ _ hj, List.getElem?_eq_getElem hj]
  rw [C79_bilinear hx hy hZ' hi hj]
  congr 1
  have nx : x1 - x0 ≠ 0 := sub_ne_zero.mpr (in_lt hx hi).ne'
  have ny : y1 - y0 ≠ 0 := sub_ne_zero.mpr (in_lt hy hj).ne'
  rw [getD_of hi.1, getD_of hi.2.1, getD_of hj.1, getD_of hj.2.1]
  unfold bilin
  field_simp
  ring

/-- **C79.** Away from the first grid lines the result depends on the four corners of one cell: the bilinear function if all are known, otherwise
NaN. -/
theorem C79_missing {x y : List K} (hx : Lines x) (hy : Lines y) {Z : List (List (Option K))} {i j : ℕ} {x0 x1 y0 y1 p q : K} (hi : In x i x0 x1 p)
    (hj : In y j y0 y1 q) (hp : x0 < p) (hq : y0 < q) {z00 z10 z01 z11 : Option K} (h00 : Stored Z i j z00) (h10 : Stored Z (i + 1) j z10)
    (h01 : Stored Z i (j + 1) z01) (h11 : Stored Z (i + 1) (j + 1) z11) :
    (value x y Z .linear (some p, some q) = none ↔ z00 = none ∨ z10 = none ∨ z01 = none ∨ z11 = none) ∧
    ∀ a b c d, z00 = some a → z10 = some b → z01 = some c → z11 = some d →
      value x y Z .linear (some p, some q) = some (bilin x0 x1 y0 y1 a b c d p q) := by
  rw [value_inside hx hy Z _ hi hj]
  have nx : x1 - x0 ≠ 0 := sub_ne_zero.mpr (in_lt hx hi).ne'
  have ny : y1 - y0 ≠ 0 := sub_ne_zero.mpr (in_lt hy hj).ne'
  rcases axis hx hi with ⟨r1, r2, r3, -⟩ | ⟨-, -, r3⟩
  swap
  · exact absurd r3 hp.ne'
  rcases axis hy hj with ⟨s1, s2, s3, -⟩ | ⟨-, -, s3⟩
  swap
  · exact absurd s3 hq.ne'
  have key : ∀ a b c d, z00 = some a → z10 = some b → z01 = some c → z11 = some d →
      inner x y Z .linear p q = some (bilin x0 x1 y0 y1 a b c d p q) := by
    rintro a b c d rfl rfl rfl rfl
    rw [linear_eq r3 s3 (by rw [r2, s2]; exact entry_of h00) (by rw [r1, s2]; exact entry_of h10) (by rw [r2, s1]; exact entry_of h01)
      (by rw [r1, s1]; exact entry_of h11)]
    congr 1
    unfold blend bilin
    field_simp
    ring
  refine ⟨?_, key⟩
  constructor
  · intro h
    by_contra hn
    push Not at hn
    obtain ⟨n0, n1, n2, n3⟩ := hn
    obtain ⟨a, rfl⟩ := Option.ne_none_iff_exists'.mp n0
    obtain ⟨b, rfl⟩ := Option.ne_none_iff_exists'.mp n1
    obtain ⟨c, rfl⟩ := Option.ne_none_iff_exists'.mp n2
    obtain ⟨d, rfl⟩ := Option.ne_none_iff_exists'.mp n3
    rw [key a b c d rfl rfl rfl rfl] at h
    cases h
  · intro h
    unfold inner
    simp only [r2, s2, r3, s3]
    rw [r1, s1, entry_of h00, entry_of h10, entry_of h01, entry_of h11]
    rcases h with rfl | rfl | rfl | rfl
    · rfl
    · cases z00 <;> cases z01 <;> rfl
    · cases z00 <;> rfl
    · cases z00 <;> cases z01 <;> cases z10 <;> rfl

/-- **C79.** Results never leave the range of the data, for every accepted grid, increasing or not. -/
theorem C79_no_overshoot {x y : List K} {Z : List (List (Option K))} (h : accepts x y Z = true) {pt : Option K × Option K} {mode : Mode} {v : K}
    (hv : value x y Z mode pt = some v) :
    ∃ i j i' j' lo hi, Stored Z i j (some lo) ∧ Stored Z i' j' (some hi) ∧ lo ≤ v ∧ v ≤ hi := by
  unfold accepts at h
  simp only [Bool.and_eq_true, decide_eq_true_eq, List.all_eq_true] at h
  obtain ⟨⟨⟨⟨⟨⟨⟨hx, hy⟩, -⟩, -⟩, -⟩, -⟩, hZ⟩, hr⟩ := h
  unfold value at hv
  split_ifs at hv with ho
  obtain ⟨p, q⟩ := pt
  rcases p with - | p
  · cases hv
  rcases q with - | q
  · cases hv
  unfold outside at ho
  simp only [Bool.not_eq_true, Bool.or_eq_false_iff, decide_eq_false_iff_not, not_lt, gt_iff_lt] at ho
  obtain ⟨⟨⟨a0, c0⟩, a1⟩, c1⟩ := ho
  obtain ⟨b1, b2, b3⟩ := bracket hx a0 a1
  obtain ⟨d1, d2, d3⟩ := bracket hy c0 c1
  have hst : ∀ a < x.length, ∀ b < y.length, Stored Z a b (entry Z a b) := by
    intro a ha b hb
    have ha' : a < Z.length := by rw [hZ]; exact ha
    have hb' : b < Z[a].length := by rw [hr _ (List.getElem_mem ha')]; exact hb
    refine ⟨Z[a], List.getElem?_eq_getElem ha', ?_⟩
    unfold entry
    rw [List.getD_eq_getElem _ _ ha', List.getD_eq_getElem _ _ hb', List.getElem?_eq_getElem hb']
  have e1 := before_lt b1
  have e2 := before_lt d1
  have hw : ∀ {x : List K} {p a : K}, (p ≤ x.getD (searchsorted x p) 0 ∧
    ((searchsorted x p = 0 ∧ p = x.getD 0 0) ∨ (0 < searchsorted x p ∧ x.getD (searchsorted x p - 1) 0 < p))) → weight x p = some a → 0 ≤ a ∧ a ≤ 1 := by
    intro x p a ⟨h1, h2⟩ h3
    unfold weight at h3
    simp only at h3
    split_ifs at h3 with h4
    obtain rfl := Option.some.inj h3
    rcases h2 with ⟨h2, h5⟩ | ⟨h2, h5⟩
    · rw [h2] at h4 ⊢
      rw [← h5] at h4 ⊢
      rw [div_self h4]
      exact ⟨zero_le_one, le_rfl⟩
    · have hb : before x.length (searchsorted x p) = searchsorted x p - 1 := by unfold before; rw [if_neg h2.ne']
      rw [hb]
      have hpos : 0 < x.getD (searchsorted x p) 0 - x.getD (searchsorted x p - 1) 0 := by linarith
      refine ⟨div_nonneg (by linarith) hpos.le, ?_⟩
      rw [div_le_one hpos]
      linarith
  simp only at hv
  cases mode with
  | constant =>
    have : ∃ i j, i < x.length ∧ j < y.length ∧ entry Z i j = some v := by
      unfold inner at hv
      simp only at hv
      split_ifs at hv
      exacts [⟨_, _, e1, e2, hv⟩, ⟨_, _, b1, e2, hv⟩, ⟨_, _, e1, d1, hv⟩, ⟨_, _, b1, d1, hv⟩]
    obtain ⟨i, j, hi, hj, he⟩ := this
    have := hst i hi j hj
    rw [he] at this
    exact ⟨i, j, i, j, v, v, this, this, le_rfl, le_rfl⟩
  | linear =>
    have s00 := hst _ e1 _ e2
    have s10 := hst _ b1 _ e2
    have s01 := hst _ e1 _ d1
    have s11 := hst _ b1 _ d1
    cases ha : weight x p with
    | none => unfold inner at hv; simp [ha] at hv
    | some a =>
    cases hb : weight y q with
    | none => unfold inner at hv; simp [hb] at hv
    | some b =>
    cases h00 : entry Z (before x.length (searchsorted x p)) (before y.length (searchsorted y q)) with
    | none => unfold inner at hv; simp [h00] at hv
    | some z00 =>
    cases h10 : entry Z (searchsorted x p) (before y.length (searchsorted y q)) with
    | none => unfold inner at hv; simp [h10] at hv
    | some z10 =>
    cases h01 : entry Z (before x.length (searchsorted x p)) (searchsorted y q) with
    | none => unfold inner at hv; simp [h01] at hv
    | some z01 =>
    cases h11 : entry Z (searchsorted x p) (searchsorted y q) with
    | none => unfold inner at hv; simp [h11] at hv
    | some z11 =>
    rw [linear_eq ha hb h00 h10 h01 h11] at hv
    obtain rfl := Option.some.inj hv
    rw [h00] at s00; rw [h10] at s10; rw [h01] at s01; rw [h11] at s11
    obtain ⟨w0, w1⟩ := hw ⟨b2, b3⟩ ha
    obtain ⟨u0, u1⟩ := hw ⟨d2, d3⟩ hb
    have k1 : 0 ≤ (1 - a) * (1 - b) := mul_nonneg (by linarith) (by linarith)
    have k2 : 0 ≤ a * (1 - b) := mul_nonneg w0 (by linarith)
    have k3 : 0 ≤ (1 - a) * b := mul_nonneg (by linarith) u0
    have k4 : 0 ≤ a * b := mul_nonneg w0 u0
    have lo : ∃ i j lo, Stored Z i j (some lo) ∧ lo ≤ z00 ∧ lo ≤ z10 ∧ lo ≤ z01 ∧ lo ≤ z11 := by
      rcases le_total z00 z10 with m1 | m1 <;> rcases le_total z01 z11 with m2 | m2
      · rcases le_total z00 z01 with m3 | m3
        · exact ⟨_, _, _, s00, le_rfl, m1, m3, m3.trans m2⟩
        · exact ⟨_, _, _, s01, m3, m3.trans m1, le_rfl, m2⟩
      · rcases le_total z00 z11 with m3 | m3
        · exact ⟨_, _, _, s00, le_rfl, m1, m3.trans m2, m3⟩
        · exact ⟨_, _, _, s11, m3, m3.trans m1, m2, le_rfl⟩
      · rcases le_total z10 z01 with m3 | m3
        · exact ⟨_, _, _, s10, m1, le_rfl, m3, m3.trans m2⟩
        · exact ⟨_, _, _, s01, m3.trans m1, m3, le_rfl, m2⟩
      · rcases le_total z10 z11 with m3 | m3
        · exact ⟨_, _, _, s10, m1, le_rfl, m3.trans m2, m3⟩
        · exact ⟨_, _, _, s11, m3.trans m1, m3, m2, le_rfl⟩
    have hi : ∃ i j hi, Stored Z i j (some hi) ∧ z00 ≤ hi ∧ z10 ≤ hi ∧ z01 ≤ hi ∧ z11 ≤ hi := by
      rcases le_total z10 z00 with m1 | m1 <;> rcases le_total z11 z01 with m2 | m2
      · rcases le_total z01 z00 with m3 | m3
        · exact ⟨_, _, _, s00, le_rfl, m1, m3, m2.trans m3⟩
        · exact ⟨_, _, _, s01, m3, m1.trans m3, le_rfl, m2⟩
      · rcases le_total z11 z00 with m3 | m3
        · exact ⟨_, _, _, s00, le_rfl, m1, m2.trans m3, m3⟩
        · exact ⟨_, _, _, s11, m3, m1.trans m3, m2, le_rfl⟩
      · rcases le_total z01 z10 with m3 | m3
        · exact ⟨_, _, _, s10, m1, le_rfl, m3, m2.trans m3⟩
        · exact ⟨_, _, _, s01, m1.trans m3, m3, le_rfl, m2⟩
      · rcases le_total z11 z10 with m3 | m3
        · exact ⟨_, _, _, s10, m1, le_rfl, m2.trans m3, m3⟩
        · exact ⟨_, _, _, s11, m1.trans m3, m3, m2, le_rfl⟩
    obtain ⟨i, j, l, hl, l0, l1, l2, l3⟩ := lo
    obtain ⟨i', j', u, hu, g0, g1, g2, g3⟩ := hi
    refine ⟨i, j, i', j', l, u, hl, hu, ?_, ?_⟩
    · unfold blend
      have i1 := mul_le_mul_of_nonneg_left l0 k1
      have i2 := mul_le_mul_of_nonneg_left l1 k2
      have i3 := mul_le_mul_of_nonneg_left l2 k3
      have i4 := mul_le_mul_of_nonneg_left l3 k4
      linear_combination i1 + i2 + i3 + i4
    · unfold blend
      have i1 := mul_le_mul_of_nonneg_left g0 k1
      have i2 := mul_le_mul_of_nonneg_left g1 k2
      have i3 := mul_le_mul_of_nonneg_left g2 k3
      have i4 := mul_le_mul_of_nonneg_left g3 k4
      linear_combination i1 + i2 + i3 + i4

/-- Which grid line the mode for nearest values takes. -/
def pick (x : List K) (p : K) : ℕ :=
  if ((weight x p).any fun a => decide (a < 1 / 2)) = true then before x.length (searchsorted x p) else searchsorted x p

theorem constant_eq (x y : List K) (Z : List (List (Option K))) (p q : K) : inner x y Z .constant p q = entry Z (pick x p) (pick y q) := by
  unfold inner pick
  simp only
  cases ((weight x p).any fun a => decide (a < 1 / 2)) <;> cases ((weight y q).any fun a => decide (a < 1 / 2)) <;> rfl

theorem pick_nearest {x : List K} (hx : Lines x) {i : ℕ} {a b p : K} (h : In x i a b p) : ∃ u, x[pick x p]? = some u ∧
    ∀ k w, x[k]? = some w → |p - u| ≤ |p - w| ∧ (|p - w| = |p - u| → k ≤ pick x p) := by
  have hl := in_length h
  have hab := in_lt hx h
  have hlow : ∀ k w, x[k]? = some w → k ≤ i → w ≤ a := by
    intro k w hw hk
    rw [← getD_of hw, ← getD_of h.1]
    exact le_of_le hx.2 hk (by omega)
  have hk_lt : ∀ k w, x[k]? = some w → k < x.length := by
    intro k w hw
    rcases Nat.lt_or_ge k x.length with h' | h'
    · exact h'
    · rw [List.getElem?_eq_none h'] at hw; cases hw
  have hhigh : ∀ k w, x[k]? = some w → i + 1 ≤ k → b ≤ w ∧ (i + 1 < k → b < w) := by
    intro k w hw hk
    rw [← getD_of hw, ← getD_of h.2.1]
    exact ⟨le_of_le hx.2 hk (hk_lt k w hw), fun h' => lt_of_lt hx.2 h' (hk_lt k w hw)⟩
  obtain ⟨h0, h1, h2, h3⟩ := h
  rcases axis hx ⟨h0, h1, h2, h3⟩ with ⟨r1, r2, r3, r4⟩ | ⟨r1, r2, r3⟩
  · have hiff : (p - a) / (b - a) < 1 / 2 ↔ p - a < b - p := by
      rw [div_lt_div_iff₀ (by linarith) (by norm_num)]
      constructor <;> intro h <;> linarith
    unfold pick
    rw [r3]
    simp only [Option.any_some, decide_eq_true_eq]
    split_ifs with hc
    · rw [hiff] at hc
      rw [r2]
      refine ⟨a, h0, fun k w hw => ?_⟩
      rw [abs_of_nonneg (by linarith : 0 ≤ p - a)]
      rcases Nat.lt_or_ge i k with hk | hk
      · have := (hhigh k w hw hk).1
        rw [abs_of_nonpos (by linarith : p - w ≤ 0)]
        exact ⟨by linarith, fun h => by linarith⟩
      · have := hlow k w hw hk
        rw [abs_of_nonneg (by linarith : 0 ≤ p - w)]
        exact ⟨by linarith, fun _ => hk⟩
    · rw [hiff, not_lt] at hc
      rw [r1]
      refine ⟨b, h1, fun k w hw => ?_⟩
      rw [abs_of_nonpos (by linarith : p - b ≤ 0)]
      rcases Nat.lt_or_ge i k with hk | hk
      · obtain ⟨g1, g2⟩ := hhigh k w hw hk
        rw [abs_of_nonpos (by linarith : p - w ≤ 0)]
        refine ⟨by linarith, fun h => ?_⟩
        by_contra hn
        have := g2 (by omega)
        linarith
      · have := hlow k w hw hk
        rw [abs_of_nonneg (by linarith : 0 ≤ p - w)]
        exact ⟨by linarith, fun _ => by omega⟩
  · unfold pick
    rw [r2]
    rw [if_neg (by norm_num), r1]
    refine ⟨a, h0, fun k w hw => ?_⟩
    rw [r3, sub_self, abs_zero]
    refine ⟨abs_nonneg _, fun h => ?_⟩
    rw [abs_eq_zero, sub_eq_zero] at h
    by_contra hn
    have := (hhigh k w hw (by omega)).1
    linarith

/-- **C79.** The other mode takes the value stored at the nearest grid lines; of two at the same distance, the upper one. -/
theorem C79_nearest {x y : List K} (hx : Lines x) (hy : Lines y) {Z : List (List (Option K))} (hZ : Shape Z x.length y.length) {p q : K}
    (hp : x.headD 0 ≤ p ∧ p ≤ x.getLastD 0) (hq : y.headD 0 ≤ q ∧ q ≤ y.getLastD 0) :
    ∃ i j u v, x[i]? = some u ∧ y[j]? = some v ∧ Stored Z i j (value x y Z .constant (some p, some q)) ∧
      (∀ (k : ℕ) (w : K), x[k]? = some w → |p - u| ≤ |p - w| ∧ (|p - w| = |p - u| → k ≤ i)) ∧
      ∀ (k : ℕ) (w : K), y[k]? = some w → |q - v| ≤ |q - w| ∧ (|q - w| = |q - v| → k ≤ j) := by
  obtain ⟨i, x0, x1, hi⟩ := exists_in hx hp.1 hp.2
  obtain ⟨j, y0, y1, hj⟩ := exists_in hy hq.1 hq.2
  obtain ⟨u, hu, nu⟩ := pick_nearest hx hi
  obtain ⟨v, hv, nv⟩ := pick_nearest hy hj
  refine ⟨pick x p, pick y q, u, v, hu, hv, ?_, nu, nv⟩
  rw [value_inside hx hy Z _ hi hj, constant_eq]
  have l1 : pick x p < Z.length := by
    rw [hZ.1]
    rcases Nat.lt_or_ge (pick x p) x.length with h' | h'
    · exact h'
    · rw [List.getElem?_eq_none h'] at hu; cases hu
  have l2 : pick y q < Z[pick x p].length := by
    rw [hZ.2 _ (List.getElem_mem l1)]
    rcases Nat.lt_or_ge (pick y q) y.length with h' | h'
    · exact h'
    · rw [List.getElem?_eq_none h'] at hv; cases hv
  refine ⟨Z[pick x p], List.getElem?_eq_getElem l1, ?_⟩
  unfold entry
  rw [List.getD_eq_getElem _ _ l1, List.getD_eq_getElem _ _ l2, List.getElem?_eq_getElem l2]

/-- **C79.** Outside the grid, and for coordinates that are not numbers, the result is NaN. -/
theorem C79_outside {x y : List K} (Z : List (List (Option K))) (mode : Mode) (pt : Option K × Option K)
    (h : pt.1 = none ∨ pt.2 = none ∨ (∃ p, pt.1 = some p ∧ (p < x.headD 0 ∨ x.getLastD 0 < p)) ∨ ∃ q, pt.2 = some q ∧ (q < y.headD 0 ∨ y.getLastD 0 < q)) :
    value x y Z mode pt = none := by
  obtain ⟨p, q⟩ := pt
  rcases p with - | p
  · unfold value outside; rfl
  rcases q with - | q
  · unfold value outside; rfl
  unfold value outside
  rw [if_pos]
  simp only [Bool.or_eq_true, decide_eq_true_eq]
  rcases h with h | h | ⟨p', h, h'⟩ | ⟨q', h, h'⟩
  · cases h
  · cases h
  · obtain rfl := Option.some.inj h
    rcases h' with h' | h'
    · exact Or.inl (Or.inl (Or.inl h'))
    · exact Or.inl (Or.inr h')
  · obtain rfl := Option.some.inj h
    rcases h' with h' | h'
    · exact Or.inl (Or.inl (Or.inr h'))
    · exact Or.inr h'

/-- Grids with increasing lines and the right shape are accepted. -/
theorem lines_min_max {x : List K} (hx : Lines x) : x ≠ [] ∧ x.min? = x.head? ∧ x.max? = x.getLast? := by
  obtain ⟨hl, hs⟩ := hx
  have hne : x ≠ [] := by rintro rfl; simp at hl
  refine ⟨hne, ?_, ?_⟩
  · cases x with
    | nil => rfl
    | cons a l =>
      rw [List.head?_cons, List.min?_eq_some_iff]
      refine ⟨by simp, fun b hb => ?_⟩
      rcases List.mem_cons.mp hb with rfl | hb
      · exact le_rfl
      · exact ((List.pairwise_cons.mp hs).1 b hb).le
  · rw [List.getLast?_eq_some_getLast hne, List.max?_eq_some_iff]
    refine ⟨List.getLast_mem hne, fun b hb => ?_⟩
    obtain ⟨k, hk, rfl⟩ := List.mem_iff_getElem.mp hb
    rw [List.getLast_eq_getElem]
    rcases Nat.lt_or_ge k (x.length - 1) with h | h
    · exact (List.pairwise_iff_getElem.mp hs k (x.length - 1) hk (by omega) h).le
    · have : k = x.length - 1 := by omega
      subst this
      exact le_rfl

/-- **C79.** A grid of the right shape with increasing lines is accepted; then there is a result for each point, unless an error is asked for and some
coordinate lies outside. -/
theorem C79_call {x y : List K} (hx : Lines x) (hy : Lines y) {Z : List (List (Option K))} (hZ : Shape Z x.length y.length)
    (pts : List (Option K × Option K)) (mode : Mode) (e : Bool) :
    interpolate2d x y Z pts mode e = .ok (pts.map (value x y Z mode)) ∨
    (interpolate2d x y Z pts mode e = .error .bounds ∧ e = true ∧
      ∃ pt ∈ pts, (∃ p, pt.1 = some p ∧ (p < x.headD 0 ∨ x.getLastD 0 < p)) ∨ ∃ q, pt.2 = some q ∧ (q < y.headD 0 ∨ y.getLastD 0 < q)) := by
  obtain ⟨x1, x2, x3⟩ := lines_min_max hx
  obtain ⟨y1, y2, y3⟩ := lines_min_max hy
  have ha : accepts x y Z = true := by
    unfold accepts
    simp only [Bool.and_eq_true, decide_eq_true_eq, List.all_eq_true]
    exact ⟨⟨⟨⟨⟨⟨⟨x1, y1⟩, x2⟩, y2⟩, x3⟩, y3⟩, hZ.1⟩, hZ.2⟩
  unfold interpolate2d
  rw [if_neg (by simp [ha])]
  cases e with
  | false => left; simp
  | true =>
    cases hb : exceeds x y pts with
    | false => left; simp
    | true =>
      right
      refine ⟨by simp, rfl, ?_⟩
      unfold exceeds at hb
      rw [List.any_eq_true] at hb
      obtain ⟨pt, hpt, h⟩ := hb
      refine ⟨pt, hpt, ?_⟩
      rw [Bool.or_eq_true] at h
      rcases h with h | h
      · left
        cases h1 : pt.1 with
        | none => rw [h1] at h; simp at h
        | some p => rw [h1] at h; exact ⟨p, rfl, by simpa using h⟩
      · right
        cases h1 : pt.2 with
        | none => rw [h1] at h; simp at h
        | some p => rw [h1] at h; exact ⟨p, rfl, by simpa using h⟩

/-- **C79.** If an error is asked for and a coordinate lies outside, there is an error. -/
theorem C79_call_error {x y : List K} {Z : List (List (Option K))} {pts : List (Option K × Option K)} {mode : Mode} {pt : Option K × Option K} (hpt : pt ∈ pts)
    (h : (∃ p, pt.1 = some p ∧ (p < x.headD 0 ∨ x.getLastD 0 < p)) ∨ ∃ q, pt.2 = some q ∧ (q < y.headD 0 ∨ y.getLastD 0 < q)) :
    ∃ er, interpolate2d x y Z pts mode true = .error er := by
  unfold interpolate2d
  have hb : exceeds x y pts = true := by
    unfold exceeds
    rw [List.any_eq_true]
    refine ⟨pt, hpt, ?_⟩
    rw [Bool.or_eq_true]
    rcases h with ⟨p, h1, h2⟩ | ⟨p, h1, h2⟩
    · left; rw [h1]; simpa using h2
    · right; rw [h1]; simpa using h2
  split_ifs with h1 h2
  · exact ⟨_, rfl⟩
  · exact ⟨_, rfl⟩
  · simp [hb] at h2

/-- **C79.** For rasters rows run from north to south and columns from west to east: the value at grid lines `i` (from the west) and `j` (from the south) is
the one in column `i` and row `j` from below. -/
theorem C79_raster {z : List (List (Option K))} {nx ny : ℕ} (hz : Shape z ny nx) (hny : 0 < ny) :
    ∃ Z, Shape Z nx ny ∧ (∀ (x y : List K) pts mode e, interpolateRaster x y z pts mode e = interpolate2d x y Z pts mode e) ∧
      ∀ i j v, i < nx → j < ny → (Stored Z i j v ↔ Stored z (ny - 1 - j) i v) := by
  have hw : (z.headD []).length = nx := by
    cases z with
    | nil => have := hz.1; simp at this; omega
    | cons r l => exact hz.2 r (by simp)
  refine ⟨transpose z.reverse (z.headD []).length, ⟨?_, ?_⟩, fun _ _ _ _ _ => rfl, ?_⟩
  · unfold transpose
    rw [List.length_map, List.length_range, hw]
  · intro r hr
    unfold transpose at hr
    rw [List.mem_map] at hr
    obtain ⟨i, -, rfl⟩ := hr
    rw [List.length_map, List.length_reverse, hz.1]
  · intro i j v hi hj
    have hj' : ny - 1 - j < z.length := by rw [hz.1]; omega
    have hlen : i < z[ny - 1 - j].length := by rw [hz.2 _ (List.getElem_mem hj')]; exact hi
    have e1 : Stored (transpose z.reverse (z.headD []).length) i j v ↔ z[ny - 1 - j][i] = v := by
      unfold Stored transpose
      rw [List.getElem?_map, hw, List.getElem?_range hi]
      simp only [Option.map_some, Option.some.injEq, exists_eq_left', List.getElem?_map]
      rw [List.getElem?_reverse (by rw [hz.1]; exact hj), hz.1, List.getElem?_eq_getElem hj']
      simp only [Option.map_some, Option.some.injEq]
      rw [List.getD_eq_getElem _ _ hlen]
    rw [e1]
    unfold Stored
    rw [List.getElem?_eq_getElem hj']
    simp only [Option.some.injEq, exists_eq_left']
    rw [List.getElem?_eq_getElem hlen, Option.some.injEq]

/-! ## Concrete cases -/

/-- A grid of three by two lines, once with a value missing in the last column. -/
def gx : List ℚ := [0, 1, 3]
def gy : List ℚ := [0, 2]
def gz : List (List (Option ℚ)) := [[some 0, some 4], [some 1, some 5], [some 3, some 7]]
def gm : List (List (Option ℚ)) := [[some 0, some 4], [some 1, some 5], [none, none]]

example : Lines gx ∧ Lines gy ∧ Shape gz gx.length gy.length := by
  refine ⟨⟨by decide, ?_⟩, ⟨by decide, ?_⟩, rfl, ?_⟩
  · simp [gx]
  · simp [gy]
  · simp [gz, gy]

example : value gx gy gz .linear (some 2, some 1) = some 4 ∧ value gx gy gz .linear (some 0, some 0) = some 0 ∧
    value gx gy gz .constant (some 2, some 1) = some 7 ∧ value gx gy gz .linear (some 4, some 1) = none := by
  decide +kernel

/-- **C79, disagreement.** A missing value on the far side spoils the western edge, two cells away; and a grid of one column has no value anywhere. -/
theorem C79_far_side : value gx gy gm .linear (some 0, some 1) = none ∧ value gx gy gm .linear (some (1 / 2), some 1) = some (5 / 2) ∧
    value [0] gy [[some 0, some 4]] .linear (some 0, some 1) = none := by
  decide +kernel

/-- **C79, disagreement.** Grid lines that do not increase are accepted as long as the first is the least and the last the greatest. -/
theorem C79_accepts_unsorted : accepts [0, 3, 1, 4] gy [[some 0, some 0], [some 1, some 1], [some 2, some 2], [some 3, some (3 : ℚ)]] = true := by
  decide +kernel

end Verif.Raster
