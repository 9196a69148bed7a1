import Verif.Raster.Files
import Mathlib.Algebra.BigOperators.Fin
import Mathlib.Algebra.BigOperators.Intervals

/-!
# C80: grid files
-/

set_option linter.unusedSectionVars false

namespace Verif.Raster

variable {K : Type*} [Field K] [LinearOrder K] [IsStrictOrderedRing K]

/-- The numbers of a file fill its grid. -/
def Fills (z : List (List K)) (nrows ncols : ℕ) : Prop := z.length = nrows ∧ ∀ r ∈ z, r.length = ncols

/-- The number in column `i` from the west and row `j` from the south. -/
def cellAt (z : List (List K)) (nrows i j : ℕ) : Option K := z[nrows - 1 - j]?.bind fun r => r[i]?

theorem linspace_length (a b : K) (n : ℕ) : (linspace a b n).length = n := by
  unfold linspace
  split_ifs with h
  · rw [h]; rfl
  · simp

theorem linspace_get (a c : K) {n i : ℕ} (hi : i < n) : (linspace a (a + c * ((n : K) - 1)) n)[i]? = some (a + (i : K) * c) := by
  unfold linspace
  split_ifs with h
  · have : i = 0 := by omega
    subst this
    simp
  · rw [List.getElem?_map, List.getElem?_range hi]
    simp only [Option.map_some, Option.some.injEq]
    have hn : (n : K) - 1 ≠ 0 := by
      rw [sub_ne_zero]
      exact_mod_cast h
    rw [add_sub_cancel_left, mul_div_cancel_right₀ _ hn]

theorem getD_row {z : List (List K)} {nrows ncols : ℕ} (h : Fills z nrows ncols) {i k : ℕ} (hi : i < ncols) (hk : k < nrows) :
    ∃ v, z[k]?.bind (fun r => r[i]?) = some v ∧ (z.getD k []).getD i 0 = v := by
  have hk' : k < z.length := by rw [h.1]; exact hk
  have hi' : i < z[k].length := by rw [h.2 _ (List.getElem_mem hk')]; exact hi
  refine ⟨z[k][i], ?_, ?_⟩
  · rw [List.getElem?_eq_getElem hk']
    simp [List.getElem?_eq_getElem hi']
  · rw [List.getD_eq_getElem _ _ hk', List.getD_eq_getElem _ _ hi']

theorem mask_stored {z : List (List K)} {nrows ncols : ℕ} (h : Fills z nrows ncols) (hr : 0 < nrows) (nd : K) :
    Shape (mask nd (transp z.reverse (z.headD []).length)) ncols nrows ∧
    ∀ i j v, i < ncols → j < nrows → cellAt z nrows i j = some v →
      Stored (mask nd (transp z.reverse (z.headD []).length)) i j (if v = nd then none else some v) := by
  have hw : (z.headD []).length = ncols := by
    cases z with
    | nil => have := h.1; simp at this; omega
    | cons r l => exact h.2 r (by simp)
  refine ⟨⟨?_, ?_⟩, ?_⟩
  · rw [hw]; simp [mask, transp]
  · intro r hr'
    simp only [mask, transp, List.mem_map] at hr'
    obtain ⟨s, ⟨i, -, rfl⟩, rfl⟩ := hr'
    simp [h.1]
  · intro i j v hi hj hv
    unfold Stored mask transp
    rw [hw, List.getElem?_map, List.getElem?_map, List.getElem?_range hi]
    refine ⟨_, rfl, ?_⟩
    rw [List.getElem?_map, List.getElem?_map, List.getElem?_reverse (by rw [h.1]; exact hj), h.1]
    unfold cellAt at hv
    rw [Option.bind_eq_some_iff] at hv
    obtain ⟨r, h1, h2⟩ := hv
    rw [h1]
    simp only [Option.map_some, Option.some.injEq]
    rw [List.getD_eq_getElem?_getD, h2]
    rfl

/-- **C80.** Reading an ASCII grid: the numbers lie on grid lines one cell size apart from the corner given, the first row in the north; numbers equal to
the (integer part of the) value for missing data become NaN. -/
theorem C80_ascii [FloorRing K] {a : Asc K} (h : Fills a.rows a.nrows a.ncols) (hr : 0 < a.nrows) :
    ∃ r, grd2array a = some r ∧ r.x.length = a.ncols ∧ r.y.length = a.nrows ∧ Shape r.z a.ncols a.nrows ∧
    (∀ i < a.ncols, r.x[i]? = some (a.xll + (i : K) * a.cell)) ∧ (∀ j < a.nrows, r.y[j]? = some (a.yll + (j : K) * a.cell)) ∧
    ∀ i j v, i < a.ncols → j < a.nrows → cellAt a.rows a.nrows i j = some v → Stored r.z i j (if v = (trunc a.nodata : K) then none else some v) := by
  have ho : ∀ (k : Key) (v : K), offset k v = v := by intro k v; cases k <;> rfl
  obtain ⟨m1, m2⟩ := mask_stored h hr (trunc a.nodata : K)
  refine ⟨_, if_pos h.1, linspace_length _ _ _, linspace_length _ _ _, m1, ?_, ?_, m2⟩
  · intro i hi
    simp only [ho]
    exact linspace_get _ _ hi
  · intro j hj
    simp only [ho]
    exact linspace_get _ _ hj

/-- **C80.** The same through the NetCDF format, if the value for missing data is an integer. -/
theorem C80_same [FloorRing K] {a : Asc K} (h : Fills a.rows a.nrows a.ncols) (hr : 0 < a.nrows) (hn : (trunc a.nodata : K) = a.nodata) :
    ∃ d, asc2dem a = some d ∧ grd2array a = some (dem2array d) := by
  refine ⟨_, if_pos h, ?_⟩
  have hw : (a.rows.headD []).length = a.ncols := by
    have h1 := h.1
    have h2 := h.2
    cases hz : a.rows with
    | nil => rw [hz] at h1; simp at h1; omega
    | cons r l => exact h2 r (by rw [hz]; simp)
  have hz : mask a.nodata (transp a.rows.reverse a.ncols) = (transpose (mask a.nodata a.rows) a.ncols).map List.reverse := by
    unfold mask transp transpose
    rw [List.map_map, List.map_map]
    refine List.map_congr_left fun i hi => ?_
    rw [List.mem_range] at hi
    simp only [Function.comp_apply, List.map_map, List.map_reverse]
    congr 1
    refine List.map_congr_left fun r hr => ?_
    have hl : i < r.length := by rw [h.2 r hr]; exact hi
    simp only [Function.comp_apply]
    rw [List.getD_eq_getElem _ _ hl, List.getD_eq_getElem _ _ (by rw [List.length_map]; exact hl), List.getElem_map]
  unfold grd2array
  rw [if_pos h.1]
  simp only
  rw [hn, hw, hz]
  unfold dem2array
  simp only
  rw [mul_comm a.cell, mul_comm a.cell]

/-- The file a NetCDF grid stands for. -/
def Dem.Fills (d : Dem K) : Prop := Raster.Fills d.elevation d.nrows d.ncols

theorem mem_nodes {d : Dem K} (h : d.Fills) (p : (K × K) × K) : p ∈ nodes d ↔
    ∃ i j : ℕ, i < d.ncols ∧ j < d.nrows ∧ p.1 = (d.xll + (i : K) * d.cell, d.yll + (j : K) * d.cell) ∧ cellAt d.elevation d.nrows i j = some p.2 := by
  unfold nodes
  simp only [List.mem_flatMap, List.mem_map, List.mem_range]
  constructor
  · rintro ⟨k, hk, i, hi, rfl⟩
    obtain ⟨v, h1, h2⟩ := getD_row h hi hk
    refine ⟨i, d.nrows - 1 - k, hi, by omega, ?_, ?_⟩
    · simp only [Prod.mk.injEq, true_and]
      have : ((d.nrows - 1 - k : ℕ) : K) = (d.nrows : K) - 1 - k := by
        rw [Nat.cast_sub (by omega), Nat.cast_sub (by omega), Nat.cast_one]
      rw [this]
      ring
    · unfold cellAt
      rw [show d.nrows - 1 - (d.nrows - 1 - k) = k by omega, h1, h2]
  · rintro ⟨i, j, hi, hj, h1, h2⟩
    refine ⟨d.nrows - 1 - j, by omega, i, hi, ?_⟩
    obtain ⟨v, h3, h4⟩ := getD_row h hi (k := d.nrows - 1 - j) (by omega)
    unfold cellAt at h2
    rw [h3] at h2
    obtain rfl := Option.some.inj h2
    refine Prod.ext ?_ h4
    rw [h1]
    simp only [Prod.mk.injEq, true_and]
    have : ((d.nrows - 1 - j : ℕ) : K) = (d.nrows : K) - 1 - j := by
      rw [Nat.cast_sub (by omega), Nat.cast_sub (by omega), Nat.cast_one]
    rw [this]
    ring

/-- **C80.** Conversion to points: exactly the grid points inside the window, borders included, whose number is not the one for missing data, at their
place and with their number. -/
theorem C80_points {d : Dem K} (h : d.Fills) (w : Window K) (e n v : K) :
    (∃ p ∈ (dem2pts d w).points, p.1.1 + (dem2pts d w).xll = e ∧ p.1.2 + (dem2pts d w).yll = n ∧ p.2 = v) ↔
    (∃ i j : ℕ, i < d.ncols ∧ j < d.nrows ∧ e = d.xll + (i : K) * d.cell ∧ n = d.yll + (j : K) * d.cell ∧ cellAt d.elevation d.nrows i j = some v) ∧
    v ≠ d.nodata ∧ (w.eastMin.getD d.xll ≤ e ∧ e ≤ w.eastMax.getD (d.xll + (d.ncols : K) * d.cell)) ∧
    (w.northMin.getD d.yll ≤ n ∧ n ≤ w.northMax.getD (d.yll + (d.nrows : K) * d.cell)) := by
  unfold dem2pts
  simp only [List.mem_map, List.mem_filter, Bool.and_eq_true, decide_eq_true_eq, ge_iff_le, mem_nodes h]
  constructor
  · rintro ⟨p, ⟨q, ⟨⟨⟨i, j, hi, hj, h1, h2⟩, h3⟩, h4⟩, rfl⟩, rfl, rfl, rfl⟩
    simp only [sub_add_cancel]
    rw [h1] at h3 ⊢
    exact ⟨⟨i, j, hi, hj, rfl, rfl, h2⟩, h4, ⟨h3.1.2, h3.1.1⟩, h3.2.2, h3.2.1⟩
  · rintro ⟨⟨i, j, hi, hj, rfl, rfl, h2⟩, h3, h4, h5⟩
    exact ⟨_, ⟨((_, _), v), ⟨⟨⟨i, j, hi, hj, rfl, h2⟩, ⟨h4.2, h4.1⟩, h5.2, h5.1⟩, h3⟩, rfl⟩, sub_add_cancel _ _, sub_add_cancel _ _, rfl⟩

theorem nodup_nodes {d : Dem K} (hc : d.cell ≠ 0) : ((nodes d).map Prod.fst).Nodup := by
  unfold nodes
  rw [List.map_flatMap]
  rw [List.nodup_flatMap]
  constructor
  · intro i _
    rw [List.map_map]
    refine List.Nodup.map ?_ List.nodup_range
    intro a b hab
    simp only [Function.comp_apply, Prod.mk.injEq] at hab
    have := hab.1
    rw [add_right_inj] at this
    exact_mod_cast mul_right_cancel₀ hc this
  · refine List.Pairwise.imp ?_ List.nodup_range
    intro i k hik
    simp only [Function.onFun, List.disjoint_left, List.mem_map, not_exists, not_and]
    rintro p ⟨q, ⟨j, -, rfl⟩, rfl⟩ q' ⟨j', -, rfl⟩ hq
    apply hik
    simp only [Prod.mk.injEq] at hq
    have := hq.2
    rw [sub_right_inj] at this
    exact_mod_cast (mul_right_cancel₀ hc this).symm

/-- **C80.** No point occurs twice. -/
theorem C80_points_once {d : Dem K} (hc : d.cell ≠ 0) (w : Window K) : ((dem2pts d w).points.map Prod.fst).Nodup := by
  unfold dem2pts
  simp only [List.map_map]
  have hsub : ((((nodes d).filter fun p => (decide (p.1.1 ≤ w.eastMax.getD (d.xll + (d.ncols : K) * d.cell)) && decide (p.1.1 ≥ w.eastMin.getD d.xll)) &&
      (decide (p.1.2 ≤ w.northMax.getD (d.yll + (d.nrows : K) * d.cell)) && decide (p.1.2 ≥ w.northMin.getD d.yll))).filter
      fun p => decide (p.2 ≠ d.nodata)).map Prod.fst).Nodup :=
    (nodup_nodes hc).sublist (List.Sublist.map _ (List.filter_sublist.trans List.filter_sublist))
  have : ∀ (l : List ((K × K) × K)) (a b : K), (l.map Prod.fst).Nodup →
      (l.map (Prod.fst ∘ fun p : (K × K) × K => ((p.1.1 - a, p.1.2 - b), p.2))).Nodup := by
    intro l a b hl
    have he : (l.map (Prod.fst ∘ fun p : (K × K) × K => ((p.1.1 - a, p.1.2 - b), p.2))) = (l.map Prod.fst).map fun u => (u.1 - a, u.2 - b) := by
      rw [List.map_map]; rfl
    rw [he]
    refine hl.map ?_
    intro u v huv
    simp only [Prod.mk.injEq, sub_left_inj] at huv
    exact Prod.ext huv.1 huv.2
  exact this _ _ _ hsub

/-- **C80.** Without a window all points with data are kept. -/
theorem C80_all_points {d : Dem K} (h : d.Fills) (hc : 0 ≤ d.cell) {i j : ℕ} {v : K} (hi : i < d.ncols) (hj : j < d.nrows)
    (hv : cellAt d.elevation d.nrows i j = some v) (hn : v ≠ d.nodata) :
    ∃ p ∈ (dem2pts d {}).points, p.1.1 + (dem2pts d {}).xll = d.xll + (i : K) * d.cell ∧ p.1.2 + (dem2pts d {}).yll = d.yll + (j : K) * d.cell ∧
      p.2 = v := by
  rw [C80_points h]
  refine ⟨⟨i, j, hi, hj, rfl, rfl, hv⟩, hn, ⟨?_, ?_⟩, ?_, ?_⟩
  · show d.xll ≤ _
    have := mul_nonneg (Nat.cast_nonneg (α := K) i) hc
    linarith
  · show _ ≤ d.xll + _
    have : (i : K) * d.cell ≤ (d.ncols : K) * d.cell := mul_le_mul_of_nonneg_right (by exact_mod_cast hi.le) hc
    linarith
  · show d.yll ≤ _
    have := mul_nonneg (Nat.cast_nonneg (α := K) j) hc
    linarith
  · show _ ≤ d.yll + _
    have : (j : K) * d.cell ≤ (d.nrows : K) * d.cell := mul_le_mul_of_nonneg_right (by exact_mod_cast hj.le) hc
    linarith

theorem lines_of {x : List K} {n : ℕ} {a c : K} (hl : x.length = n) (h2 : 2 ≤ n) (hc : 0 < c) (h : ∀ i < n, x[i]? = some (a + (i : K) * c)) : Lines x := by
  refine ⟨by omega, ?_⟩
  rw [List.pairwise_iff_getElem]
  intro i j hi hj hij
  have h1 := h i (by omega)
  have h2 := h j (by omega)
  rw [List.getElem?_eq_getElem hi, Option.some.injEq] at h1
  rw [List.getElem?_eq_getElem hj, Option.some.injEq] at h2
  rw [h1, h2]
  have : (i : K) * c < (j : K) * c := mul_lt_mul_of_pos_right (by exact_mod_cast hij) hc
  linarith

/-- **C80.** Points and interpolation agree: in a file without missing data, interpolation at the place of a number gives that number. -/
theorem C80_interpolates [FloorRing K] {a : Asc K} (h : Fills a.rows a.nrows a.ncols) (hr : 2 ≤ a.nrows) (hcol : 2 ≤ a.ncols) (hc : 0 < a.cell)
    (hfull : ∀ r ∈ a.rows, ∀ v ∈ r, v ≠ (trunc a.nodata : K)) {i j : ℕ} {v : K} (hi : i < a.ncols) (hj : j < a.nrows)
    (hv : cellAt a.rows a.nrows i j = some v) :
    ∃ r, grd2array a = some r ∧ value r.x r.y r.z .linear (some (a.xll + (i : K) * a.cell), some (a.yll + (j : K) * a.cell)) = some v := by
  obtain ⟨r, e, lx, ly, -, gx, gy, gz⟩ := C80_ascii h (by omega)
  refine ⟨r, e, ?_⟩
  have Lx := lines_of lx hcol hc gx
  have Ly := lines_of ly hr hc gy
  set f : ℕ → ℕ → K := fun i j => (a.rows.getD (a.nrows - 1 - j) []).getD i 0 with hf
  have hcell : ∀ i j, i < a.ncols → j < a.nrows → cellAt a.rows a.nrows i j = some (f i j) := by
    intro i j hi hj
    obtain ⟨u, h1, h2⟩ := getD_row h hi (k := a.nrows - 1 - j) (by omega)
    unfold cellAt
    rw [h1, ← h2]
  have hZ : ∀ i < r.x.length, ∀ j < r.y.length, Stored r.z i j (some (f i j)) := by
    intro i hi j hj
    rw [lx] at hi
    rw [ly] at hj
    have hs := gz i j _ hi hj (hcell i j hi hj)
    rwa [if_neg] at hs
    have := hcell i j hi hj
    unfold cellAt at this
    rw [Option.bind_eq_some_iff] at this
    obtain ⟨row, h1, h2⟩ := this
    exact hfull row (List.mem_of_getElem? h1) _ (List.mem_of_getElem? h2)
  have hvf : v = f i j := by
    have := hcell i j hi hj
    rw [hv] at this
    exact Option.some.inj this
  -- an interval that contains the coordinate
  have interval : ∀ {x : List K} {n : ℕ} {b c : K}, 2 ≤ n → 0 < c → (∀ i < n, x[i]? = some (b + (i : K) * c)) → ∀ k < n,
      ∃ k', In x k' (b + (k' : K) * c) (b + ((k' + 1 : ℕ) : K) * c) (b + (k : K) * c) ∧ (k = k' ∨ k = k' + 1) := by
    intro x n b c h2 hc hx k hk
    rcases Nat.lt_or_ge (k + 1) n with h | h
    · refine ⟨k, ⟨hx k hk, hx (k + 1) h, le_rfl, ?_⟩, Or.inl rfl⟩
      push_cast
      nlinarith
    · refine ⟨k - 1, ⟨hx (k - 1) (by omega), hx (k - 1 + 1) (by omega), ?_, ?_⟩, Or.inr (by omega)⟩
      · have : ((k - 1 : ℕ) : K) ≤ (k : K) := by exact_mod_cast Nat.sub_le k 1
        have := mul_le_mul_of_nonneg_right this hc.le
        linarith
      · rw [Nat.sub_add_cancel (by omega)]
  obtain ⟨i', Ii, ci⟩ := interval hcol hc gx i hi
  obtain ⟨j', Ij, cj⟩ := interval hr hc gy j hj
  rw [C79_bilinear Lx Ly hZ Ii Ij, hvf]
  congr 1
  have hc' := hc.ne'
  have q : ∀ k : ℕ, (((k + 1 : ℕ) : K)) = (k : K) + 1 := fun k => by push_cast; ring
  have d1 : ∀ (b : K) (k : ℕ), b + ((k : K) + 1) * a.cell - (b + (k : K) * a.cell) = a.cell := fun b k => by ring
  unfold bilin
  rcases ci with rfl | rfl <;> rcases cj with rfl | rfl <;> simp only [q, d1, sub_self, mul_zero, zero_mul, add_zero, zero_add] <;>
    rw [div_eq_iff (mul_ne_zero hc' hc'), mul_comm]

/-! ## Decimation -/

theorem sum_zipWith_eq (f : K → K → K) (l m : List K) (n : ℕ) (hl : l.length = n) (hm : m.length = n) :
    (List.zipWith f l m).sum = ∑ i ∈ Finset.range n, f (l.getD i 0) (m.getD i 0) := by
  induction n generalizing l m with
  | zero =>
    rw [List.length_eq_zero_iff] at hl
    subst hl
    rfl
  | succ n ih =>
    obtain ⟨a, l, rfl⟩ := List.exists_cons_of_length_eq_add_one hl
    obtain ⟨b, m, rfl⟩ := List.exists_cons_of_length_eq_add_one hm
    rw [List.zipWith_cons_cons, List.sum_cons, Finset.sum_range_succ', ih l m (by simpa using hl) (by simpa using hm), add_comm]
    rfl

theorem sum_zipWith_rows (f : List K → List K → K) (l m : List (List K)) (n : ℕ) (hl : l.length = n) (hm : m.length = n) :
    (List.zipWith f l m).sum = ∑ i ∈ Finset.range n, f (l.getD i []) (m.getD i []) := by
  induction n generalizing l m with
  | zero =>
    rw [List.length_eq_zero_iff] at hl
    subst hl
    rfl
  | succ n ih =>
    obtain ⟨a, l, rfl⟩ := List.exists_cons_of_length_eq_add_one hl
    obtain ⟨b, m, rfl⟩ := List.exists_cons_of_length_eq_add_one hm
    rw [List.zipWith_cons_cons, List.sum_cons, Finset.sum_range_succ', ih l m (by simpa using hl) (by simpa using hm), add_comm]
    rfl

/-- A number of a matrix, rows from the north. -/
def num (z : List (List K)) (k i : ℕ) : K := (z.getD k []).getD i 0

theorem window_get {z : List (List K)} {nrows ncols : ℕ} (h : Fills z nrows ncols) {row col nr nc : ℕ} (h1 : row + nr ≤ nrows) (h2 : col + nc ≤ ncols) :
    (window z row col nr nc).length = nr ∧ ∀ a < nr, ((window z row col nr nc).getD a []).length = nc ∧
      ∀ b < nc, ((window z row col nr nc).getD a []).getD b 0 = num z (row + a) (col + b) := by
  have hlen : (window z row col nr nc).length = nr := by
    unfold window
    rw [List.length_map, List.length_take, List.length_drop, h.1]
    omega
  refine ⟨hlen, fun a ha => ?_⟩
  have hk : row + a < z.length := by rw [h.1]; omega
  have he : (window z row col nr nc).getD a [] = ((z[row + a]).drop col).take nc := by
    rw [List.getD_eq_getElem _ _ (by omega)]
    unfold window
    rw [List.getElem_map, List.getElem_take, List.getElem_drop]
  rw [he]
  have hl : (z[row + a]).length = ncols := h.2 _ (List.getElem_mem hk)
  refine ⟨by rw [List.length_take, List.length_drop, hl]; omega, fun b hb => ?_⟩
  unfold num
  rw [List.getD_eq_getElem _ _ (by rw [List.length_take, List.length_drop, hl]; omega), List.getElem_take, List.getElem_drop,
    List.getD_eq_getElem _ _ hk, List.getD_eq_getElem _ _ (by omega)]

/-- **C80.** Decimation with whole cell sizes and missing value: each new number is the weighted sum of the old ones under the stencil, which lies inside
the grid, or missing if one of them is. -/
theorem C80_decimated [FloorRing K] {d d' : Dem K} (h : d.Fills) {stencil : List (List K)} {nrs ncs : ℕ} (hs : Fills stencil nrs ncs) (hnrs : 0 < nrs)
    (hfit : nrs ≤ d.nrows ∧ ncs ≤ d.ncols) (hnd : (trunc d.nodata : K) = d.nodata) {cellNew : K} (hd : dem2dem d stencil cellNew = some d') {ratio : ℕ}
    (hratio : trunc (cellNew / (trunc d.cell : K)) = (ratio : ℤ)) :
    d'.Fills ∧ d'.nodata = d.nodata ∧ d'.cell = cellNew ∧ d'.nrows = 1 + (d.nrows - nrs) / ratio ∧ d'.ncols = 1 + (d.ncols - ncs) / ratio ∧
    ∀ k < d'.nrows, ∀ i < d'.ncols, k * ratio + nrs ≤ d.nrows ∧ i * ratio + ncs ≤ d.ncols ∧
      ((∃ a < nrs, ∃ b < ncs, num d.elevation (k * ratio + a) (i * ratio + b) = d.nodata) → num d'.elevation k i = d.nodata) ∧
      ((∀ a < nrs, ∀ b < ncs, num d.elevation (k * ratio + a) (i * ratio + b) ≠ d.nodata) → num d'.elevation k i =
        ∑ a ∈ Finset.range nrs, ∑ b ∈ Finset.range ncs, num d.elevation (k * ratio + a) (i * ratio + b) * num stencil a b) := by
  have hnc : (stencil.headD []).length = ncs := by
    have h1 := hs.1
    have h2 := hs.2
    cases hz : stencil with
    | nil => rw [hz] at h1; simp at h1; omega
    | cons r l => exact h2 r (by rw [hz]; simp)
  unfold dem2dem at hd
  simp only at hd
  rw [hnc, hs.1, hratio, hnd] at hd
  split_ifs at hd with c1 c2
  obtain rfl := Option.some.inj hd
  have hr0 : 0 < ratio := by
    rcases Nat.eq_zero_or_pos ratio with h | h
    · exact absurd (by rw [h]; rfl) c2
    · exact h
  have q1 : (1 + ((d.nrows : ℤ) - nrs) / (ratio : ℤ)).toNat = 1 + (d.nrows - nrs) / ratio := by
    rw [← Nat.cast_sub hfit.1, ← Int.natCast_div, ← Nat.cast_one, ← Nat.cast_add, Int.toNat_natCast]
  have q2 : (1 + ((d.ncols : ℤ) - ncs) / (ratio : ℤ)).toNat = 1 + (d.ncols - ncs) / ratio := by
    rw [← Nat.cast_sub hfit.2, ← Int.natCast_div, ← Nat.cast_one, ← Nat.cast_add, Int.toNat_natCast]
  simp only [q1, q2, Int.toNat_natCast]
  refine ⟨⟨by simp, ?_⟩, trivial, trivial, trivial, trivial, ?_⟩
  · intro r hr
    simp only [List.mem_map] at hr
    obtain ⟨k, -, rfl⟩ := hr
    simp
  intro k hk i hi
  have f1 : k * ratio + nrs ≤ d.nrows := by
    have : k ≤ (d.nrows - nrs) / ratio := by omega
    rw [Nat.le_div_iff_mul_le hr0] at this
    omega
  have f2 : i * ratio + ncs ≤ d.ncols := by
    have : i ≤ (d.ncols - ncs) / ratio := by omega
    rw [Nat.le_div_iff_mul_le hr0] at this
    omega
  obtain ⟨w1, w2⟩ := window_get h f1 f2
  set tmp := window d.elevation (k * ratio) (i * ratio) nrs ncs with htmp
  have hval : num ((List.range (1 + (d.nrows - nrs) / ratio)).map fun i : ℕ => (List.range (1 + (d.ncols - ncs) / ratio)).map fun j : ℕ =>
      if ((window d.elevation (i * ratio) (j * ratio) nrs ncs).any fun r => r.any fun v => decide (v = d.nodata)) = true then d.nodata
      else weigh (window d.elevation (i * ratio) (j * ratio) nrs ncs) stencil) k i =
      if (tmp.any fun r => r.any fun v => decide (v = d.nodata)) = true then d.nodata else weigh tmp stencil := by
    unfold num
    rw [List.getD_eq_getElem (n := k) _ _ (by rw [List.length_map, List.length_range]; exact hk), List.getElem_map,
      List.getD_eq_getElem (n := i) _ _ (by rw [List.length_map, List.length_range]; exact hi), List.getElem_map, List.getElem_range, List.getElem_range]
  have hany : (tmp.any fun r => r.any fun v => decide (v = d.nodata)) = true ↔ ∃ a < nrs, ∃ b < ncs, num d.elevation (k * ratio + a) (i * ratio + b) = d.nodata := by
    rw [List.any_eq_true]
    constructor
    · rintro ⟨r, hr, h2⟩
      rw [List.any_eq_true] at h2
      obtain ⟨v, hv, h3⟩ := h2
      obtain ⟨a, ha, rfl⟩ := List.mem_iff_getElem.mp hr
      obtain ⟨b, hb, rfl⟩ := List.mem_iff_getElem.mp hv
      have ha' : a < nrs := by omega
      obtain ⟨l1, l2⟩ := w2 a ha'
      rw [List.getD_eq_getElem _ _ ha] at l1 l2
      refine ⟨a, ha', b, by omega, ?_⟩
      rw [← l2 b (by omega), List.getD_eq_getElem _ _ hb]
      simpa using h3
    · rintro ⟨a, ha, b, hb, h3⟩
      obtain ⟨l1, l2⟩ := w2 a ha
      rw [← l2 b hb] at h3
      have ha' : a < tmp.length := by omega
      rw [List.getD_eq_getElem _ _ ha'] at l1 h3
      rw [List.getD_eq_getElem (n := b) _ _ (by omega)] at h3
      refine ⟨_, List.getElem_mem ha', ?_⟩
      rw [List.any_eq_true]
      exact ⟨(tmp[a])[b]'(by omega), List.getElem_mem _, by simpa using h3⟩
  refine ⟨f1, f2, ?_, ?_⟩
  · intro hex
    rw [hval, if_pos (hany.mpr hex)]
  · intro hall
    rw [hval, if_neg]
    · unfold weigh
      rw [sum_zipWith_rows _ _ _ nrs w1 hs.1]
      refine Finset.sum_congr rfl fun a ha => ?_
      rw [Finset.mem_range] at ha
      obtain ⟨l1, l2⟩ := w2 a ha
      have ha' : a < stencil.length := by rw [hs.1]; exact ha
      rw [sum_zipWith_eq _ _ _ ncs l1 (by rw [List.getD_eq_getElem _ _ ha']; exact hs.2 _ (List.getElem_mem ha'))]
      refine Finset.sum_congr rfl fun b hb => ?_
      rw [Finset.mem_range] at hb
      rw [l2 b hb]
      rfl
    · rw [hany]
      rintro ⟨a, ha, b, hb, h3⟩
      exact hall a ha b hb h3

/-- **C80, disagreement.** A decimated number is not placed at the centre of the numbers it is made from: it lies half an old cell too far east, and half an
old cell too far north less one old cell for each row that is left over. -/
theorem C80_decimated_position [FloorRing K] {d d' : Dem K} {stencil : List (List K)} {nrs ncs : ℕ} (hs : Fills stencil nrs ncs) (hnrs : 0 < nrs)
    (hfit : nrs ≤ d.nrows ∧ ncs ≤ d.ncols) (hcell : (trunc d.cell : K) = d.cell) {ratio : ℕ}
    (hd : dem2dem d stencil ((ratio : K) * d.cell) = some d') (hratio : trunc ((ratio : K) * d.cell / d.cell) = (ratio : ℤ)) {k i : ℕ} (hk : k < d'.nrows) :
    d'.xll + (i : K) * d'.cell = (d.xll + (((i * ratio : ℕ) : K) + ((ncs : K) - 1) / 2) * d.cell) + d.cell / 2 ∧
    d'.yll + ((d'.nrows - 1 - k : ℕ) : K) * d'.cell =
      (d.yll + ((d.nrows : K) - 1 - (((k * ratio : ℕ) : K) + ((nrs : K) - 1) / 2)) * d.cell) + d.cell / 2 -
        (((d.nrows - nrs) % ratio : ℕ) : K) * d.cell := by
  have hnc : (stencil.headD []).length = ncs := by
    have h1 := hs.1
    have h2 := hs.2
    cases hz : stencil with
    | nil => rw [hz] at h1; simp at h1; omega
    | cons r l => exact h2 r (by rw [hz]; simp)
  unfold dem2dem at hd
  simp only at hd
  rw [hnc, hs.1, hcell, hratio] at hd
  split_ifs at hd with c1 c2
  obtain rfl := Option.some.inj hd
  have q1 : (1 + ((d.nrows : ℤ) - nrs) / (ratio : ℤ)).toNat = 1 + (d.nrows - nrs) / ratio := by
    rw [← Nat.cast_sub hfit.1, ← Int.natCast_div, ← Nat.cast_one, ← Nat.cast_add, Int.toNat_natCast]
  simp only [q1] at hk ⊢
  constructor
  · push_cast
    ring
  · have hm : (((d.nrows - nrs) / ratio : ℕ) : K) * (ratio : K) + (((d.nrows - nrs) % ratio : ℕ) : K) = (d.nrows : K) - nrs := by
      rw [← Nat.cast_sub hfit.1]
      exact_mod_cast Nat.div_add_mod' (d.nrows - nrs) ratio
    rw [show 1 + (d.nrows - nrs) / ratio - 1 - k = (d.nrows - nrs) / ratio - k by omega, Nat.cast_sub (by omega)]
    push_cast
    linear_combination d.cell * hm

/-! ## Concrete cases and further disagreements -/

/-- A file of three rows and two columns. -/
def file : Asc ℚ := ⟨2, 3, .corner, .corner, 100, 200, 10, -9999, [[1, 2], [3, -9999], [5, 6]]⟩

example : Fills file.rows file.nrows file.ncols ∧ 0 < file.nrows ∧ ((trunc file.nodata : ℤ) : ℚ) = file.nodata := by
  refine ⟨⟨rfl, ?_⟩, by decide, by decide +kernel⟩
  simp [file]

example : (grd2array file).map (fun r => r.z) = some [[some 5, some 3, some 1], [some 6, none, some 2]] := by decide +kernel

example : (asc2dem file).map (fun d => (dem2pts d {}).points) = some [((0, 20), 1), ((10, 20), 2), ((0, 10), 3), ((0, 0), 5), ((10, 0), 6)] := by
  decide +kernel

/-- The same file without gap, with a stencil of one row and two columns. -/
example : ((asc2dem { file with rows := [[1, 2], [3, 4], [5, 6]] }).bind fun d => dem2dem d [[1 / 2, 1 / 2]] 20).map (fun d => d.elevation) =
    some [[3 / 2], [11 / 2]] := by
  decide +kernel

example : trunc ((2 : ℕ) * (10 : ℚ) / 10) = ((2 : ℕ) : ℤ) ∧ trunc ((20 : ℚ) / ((trunc (10 : ℚ) : ℤ) : ℚ)) = ((2 : ℕ) : ℤ) := by decide +kernel

/-- **C80, disagreement.** Corner and centre of the first cell are treated alike, although they are half a cell apart. -/
theorem C80_corner_is_centre [FloorRing K] (a : Asc K) : grd2array { a with xkey := .corner, ykey := .corner } = grd2array { a with xkey := .center, ykey := .center } ∧
    asc2dem { a with xkey := .corner, ykey := .corner } = asc2dem { a with xkey := .center, ykey := .center } := ⟨rfl, rfl⟩

/-- **C80, disagreement.** With a value for missing data that is not an integer the two ways of reading differ: reading the text keeps it as data. -/
theorem C80_fractional_missing : ∃ a : Asc ℚ, Fills a.rows a.nrows a.ncols ∧
    (grd2array a).map (fun r => r.z) = some [[some (-19999 / 2)]] ∧ (asc2dem a).map (fun d => (dem2array d).z) = some [[none]] := by
  refine ⟨⟨1, 1, .corner, .corner, 0, 0, 1, -19999 / 2, [[-19999 / 2]]⟩, ⟨rfl, by simp⟩, by decide +kernel, by decide +kernel⟩

end Verif.Raster
