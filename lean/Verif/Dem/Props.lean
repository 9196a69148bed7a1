import Verif.Dem.LemmasRun

/-! # C91: maps exported from results -/

set_option linter.unusedSectionVars false

namespace Verif.Dem

open Verif.Polygon Verif.Raster

variable {K : Type*} [Field K] [LinearOrder K] [IsStrictOrderedRing K]

/-- **C91.** Whatever the block size, the quantity exported is, at every point of the mesh, the expression evaluated from the stored
values of that point and then reduced over the stored times. -/
theorem C91_values {r : Results K} {expr : List K → K} {red : Reduction K} {b : ℕ} (hb : 0 < b) {vals : List K}
    (h : values expr red r.nt r.xs.length b r.vars = some vals) :
    vals.length = r.xs.length ∧ ∀ i < r.xs.length, NodeValue r expr red i (vals.getD i 0) := by
  rw [values_eq expr red r.nt _ hb] at h
  have hl := mapM_length h
  rw [List.length_range] at hl
  refine ⟨hl, fun i hi => ?_⟩
  have hg := mapM_get h (i := i) (a := i) (by rw [List.getElem?_range hi])
  rw [List.getElem?_eq_getElem (by omega)] at hg
  rw [List.getD_eq_getElem _ _ (by omega)]
  exact nodeValue_of hg

/-- **C91.** The block size has no effect at all. -/
theorem C91_block_size [FloorRing K] (sq : K → K) (r : Results K) (expr : List K → K) (red : Reduction K) (cell nodata : K) (w : Window K) {b b' : ℕ}
    (hb : 0 < b) (hb' : 0 < b') : raster sq r expr red cell nodata w b = raster sq r expr red cell nodata w b' := by
  unfold raster
  rw [values_eq expr red r.nt _ hb, values_eq expr red r.nt _ hb']

/-- **C91.** With a function as reduction the export succeeds exactly if the map is not inside out. -/
theorem C91_defined [FloorRing K] {sq : K → K} {r : Results K} (hp : Proper r) {expr : List K → K} {f : List K → K} {cell nodata : K} {w : Window K}
    {west east south north : K} (hx : Extent r w west east south north) {b : ℕ} (hb : 0 < b) :
    (raster sq r expr (.fn f) cell nodata w b).isSome = true ↔ west ≤ east ∧ south ≤ north := by
  unfold raster
  have h1 : (values expr (.fn f) r.nt r.xs.length b r.vars).isSome = true := by
    rw [values_eq expr _ r.nt _ hb]
    apply mapM_isSome
    intro k _
    unfold want
    split_ifs <;> rfl
  obtain ⟨vals, hv⟩ := Option.isSome_iff_exists.1 h1
  rw [hv, frame_eq hp hx]
  by_cases h : west ≤ east ∧ south ≤ north
  · rw [if_pos h]; simp [h]
  · rw [if_neg h]; simp [h]

/-- What the export computes, before it is written to a file. -/
theorem raster_right [FloorRing K] {sq : K → K} (hs : IsSqrt sq) {r : Results K} (hp : Proper r) {expr : List K → K} {red : Reduction K} {cell nodata : K}
    (hc : 0 < cell) {w : Window K} {west east south north : K} (hx : Extent r w west east south north) {b : ℕ} (hb : 0 < b) {f : Frame K} {grid : List K}
    (h : raster sq r expr red cell nodata w b = some (f, grid)) :
    f.xll = west ∧ f.yll = south ∧ (∀ k : ℕ, k < f.ncols ↔ west + (k : K) * cell ≤ east) ∧ (∀ j : ℕ, j < f.nrows ↔ south + (j : K) * cell ≤ north) ∧
    grid.length = f.nrows * f.ncols ∧
    ∀ j < f.nrows, ∀ k < f.ncols, ∃ v, grid[j * f.ncols + k]? = some v ∧ Right r expr red nodata (position west south cell k j) v := by
  unfold raster at h
  cases hv : values expr red r.nt r.xs.length b r.vars with
  | none => rw [hv] at h; simp at h
  | some vals =>
    rw [hv, frame_eq hp hx] at h
    simp only [Option.bind_some] at h
    by_cases hwe : west ≤ east ∧ south ≤ north
    swap
    · rw [if_neg hwe] at h; simp at h
    rw [if_pos hwe] at h
    simp only [Option.map_some, Option.some.injEq, Prod.mk.injEq] at h
    obtain ⟨rfl, rfl⟩ := h
    obtain ⟨hvl, hnv⟩ := C91_values hb hv
    refine ⟨rfl, rfl, ?_, ?_, grid_length .., ?_⟩
    · intro k; rw [count_iff hc (sub_nonneg.2 hwe.1)]; constructor <;> intro h <;> linarith
    · intro j; rw [count_iff hc (sub_nonneg.2 hwe.2)]; constructor <;> intro h <;> linarith
    · intro j hj k hk
      obtain ⟨v, e, hv⟩ := grid_get sq hc nodata (triangles (List.zipWith (fun x y => (⟨x + r.xll - west, y + r.yll - south⟩ : Pt K)) r.xs r.ys) vals r.vols) hj hk
      have hn : node cell j k = rel west south (position west south cell k j) := by
        unfold node rel position; simp
      refine ⟨v, e, ?_⟩
      rcases hv with ⟨t, ht, hcov, hvt⟩ | ⟨hvt, hno⟩
      · left
        unfold triangles at ht
        obtain ⟨vol, hvol, rfl⟩ := List.mem_map.1 ht
        obtain ⟨c1, c2, c3⟩ := hp.corner vol hvol
        have e1 := pts_get hp west south c1
        have e2 := pts_get hp west south c2
        have e3 := pts_get hp west south c3
        refine ⟨vol, hvol, ?_, vals.getD vol.1 0, vals.getD vol.2.1 0, vals.getD vol.2.2 0, hnv _ c1, hnv _ c2, hnv _ c3, ?_⟩
        · have := touches_of hs hcov
          rw [hn] at this
          simp only [e1, e2, e3] at this
          exact touches_of_rel this
        · have hf := hp.solid vol hvol
          have := interp_linear hs (t := ⟨rel west south (place r vol.1), rel west south (place r vol.2.1), rel west south (place r vol.2.2),
            vals.getD vol.1 0, vals.getD vol.2.1 0, vals.getD vol.2.2 0⟩) (fun h => hf (flat_rel.1 h)) (node cell j k)
          rw [hvt]
          simp only [e1, e2, e3]
          rw [hn] at this ⊢
          exact linear_of_rel this
      · right
        refine ⟨hvt, fun vol hvol hin => ?_⟩
        obtain ⟨c1, c2, c3⟩ := hp.corner vol hvol
        have e1 := pts_get hp west south c1
        have e2 := pts_get hp west south c2
        have e3 := pts_get hp west south c3
        have := hno _ (List.mem_map.2 ⟨vol, hvol, rfl⟩)
        simp only [e1, e2, e3] at this
        rw [hn, covers_of hs (fun h => hp.solid vol hvol (flat_rel.1 h)) (closed_rel.2 hin)] at this
        exact Bool.noConfusion this

theorem row_length {grid : List K} {nrows ncols j : ℕ} (hg : grid.length = nrows * ncols) (hj : j < nrows) : (rowOf grid ncols j).length = ncols := by
  unfold rowOf
  rw [List.length_take, List.length_drop, hg]
  have : (j + 1) * ncols ≤ nrows * ncols := Nat.mul_le_mul_right _ hj
  rw [Nat.add_mul, one_mul] at this
  omega

theorem row_get (grid : List K) {ncols j k : ℕ} (hk : k < ncols) : (rowOf grid ncols j)[k]? = grid[j * ncols + k]? := by
  unfold rowOf
  rw [List.getElem?_take_of_lt hk, List.getElem?_drop]

/-- **C91.** The ER Mapper grid: corner, cell size and value for missing data are those asked for; columns and rows are all those inside the
map; every entry is right for its place on the map, the first row being the northernmost. -/
theorem C91_ers [FloorRing K] {sq : K → K} (hs : IsSqrt sq) {r : Results K} (hp : Proper r) {expr : List K → K} {red : Reduction K} {cell nodata : K}
    (hc : 0 < cell) {w : Window K} {west east south north : K} (hx : Extent r w west east south north) {b : ℕ} (hb : 0 < b) {d : Dem K}
    (h : toErs sq r expr red cell nodata w b = some d) :
    (d.xll = west ∧ d.yll = south ∧ d.cell = cell ∧ d.nodata = nodata) ∧
    (∀ k : ℕ, k < d.ncols ↔ west + (k : K) * cell ≤ east) ∧ (∀ j : ℕ, j < d.nrows ↔ south + (j : K) * cell ≤ north) ∧
    Fills d.elevation d.nrows d.ncols ∧
    ∀ k < d.ncols, ∀ j < d.nrows, ∃ v, cellAt d.elevation d.nrows k j = some v ∧ Right r expr red nodata (position west south cell k j) v := by
  unfold toErs at h
  obtain ⟨⟨f, grid⟩, hr, rfl⟩ := Option.map_eq_some_iff.1 h
  obtain ⟨h1, h2, h3, h4, hg, h5⟩ := raster_right hs hp hc hx hb hr
  refine ⟨⟨h1, h2, rfl, rfl⟩, h3, h4, ⟨by simp [writeErs], ?_⟩, ?_⟩
  · intro row hrow
    simp only [writeErs, List.mem_reverse, List.mem_map, List.mem_range] at hrow
    obtain ⟨i, hi, rfl⟩ := hrow
    exact row_length hg hi
  · intro k hk j hj
    obtain ⟨v, e, hv⟩ := h5 j hj k hk
    refine ⟨v, ?_, hv⟩
    unfold cellAt writeErs
    simp only
    rw [List.getElem?_reverse (by simp only [List.length_map, List.length_range]; have : j < f.nrows := hj; omega)]
    simp only [List.length_map, List.length_range]
    have hj' : j < f.nrows := hj
    rw [show f.nrows - 1 - (f.nrows - 1 - j) = j by omega, List.getElem?_map, List.getElem?_range hj']
    simp only [Option.map_some, Option.bind_some]
    rw [row_get grid (show k < f.ncols from hk), e]

/-- **C91.** The text grid: the same entries (as far as the text shows them), but the corner of the map cut to whole numbers. -/
theorem C91_asc [FloorRing K] {sq fmt : K → K} (hs : IsSqrt sq) {r : Results K} (hp : Proper r) {expr : List K → K} {red : Reduction K} {cell nodata : K}
    (hc : 0 < cell) {w : Window K} {west east south north : K} (hx : Extent r w west east south north) {b : ℕ} (hb : 0 < b) {a : Asc K}
    (h : toAsc sq fmt r expr red cell nodata w b = some a) :
    (a.xll = (trunc west : K) ∧ a.yll = (trunc south : K) ∧ a.cell = cell ∧ a.nodata = (trunc nodata : K)) ∧
    (∀ k : ℕ, k < a.ncols ↔ west + (k : K) * cell ≤ east) ∧ (∀ j : ℕ, j < a.nrows ↔ south + (j : K) * cell ≤ north) ∧
    Fills a.rows a.nrows a.ncols ∧
    ∀ k < a.ncols, ∀ j < a.nrows, ∃ v, cellAt a.rows a.nrows k j = some (fmt v) ∧ Right r expr red nodata (position west south cell k j) v := by
  unfold toAsc at h
  obtain ⟨⟨f, grid⟩, hr, rfl⟩ := Option.map_eq_some_iff.1 h
  obtain ⟨h1, h2, h3, h4, hg, h5⟩ := raster_right hs hp hc hx hb hr
  refine ⟨⟨by rw [← h1]; rfl, by rw [← h2]; rfl, rfl, rfl⟩, h3, h4, ⟨by simp [writeAsc], ?_⟩, ?_⟩
  · intro row hrow
    simp only [writeAsc, List.mem_map, List.mem_range] at hrow
    obtain ⟨i, hi, rfl⟩ := hrow
    rw [List.length_map]
    exact row_length hg (by omega)
  · intro k hk j hj
    obtain ⟨v, e, hv⟩ := h5 j hj k hk
    refine ⟨v, ?_, hv⟩
    unfold cellAt writeAsc
    simp only
    have hj' : j < f.nrows := hj
    rw [List.getElem?_map, List.getElem?_range (by omega)]
    simp only [Option.map_some, Option.bind_some]
    rw [show f.nrows - (f.nrows - 1 - j) - 1 = j by omega, List.getElem?_map, row_get grid (show k < f.ncols from hk), e]
    rfl

theorem trunc_int [FloorRing K] (n : ℤ) : trunc ((n : ℤ) : K) = n := by
  unfold trunc
  split_ifs
  · exact Int.floor_intCast n
  · exact Int.ceil_intCast n

/-- **C91.** If the corner of the map and the value for missing data are whole numbers, reading the text grid back gives grid lines at the right
places and, at every crossing, the exported value (as far as the text shows it), or a gap where that is the value for missing data. -/
theorem C91_read_back [FloorRing K] {sq fmt : K → K} (hs : IsSqrt sq) {r : Results K} (hp : Proper r) {expr : List K → K} {red : Reduction K} {cell : K}
    (hc : 0 < cell) {w : Window K} {east north : K} {west south nodata : ℤ} (hx : Extent r w (west : K) east (south : K) north) {b : ℕ} (hb : 0 < b)
    {a : Asc K} (h : toAsc sq fmt r expr red cell (nodata : K) w b = some a) :
    ∃ m, grd2array a = some m ∧ m.x.length = a.ncols ∧ m.y.length = a.nrows ∧
    (∀ k < a.ncols, m.x[k]? = some ((west : K) + (k : K) * cell)) ∧ (∀ j < a.nrows, m.y[j]? = some ((south : K) + (j : K) * cell)) ∧
    ∀ k < a.ncols, ∀ j < a.nrows, ∃ v, Right r expr red (nodata : K) (position (west : K) (south : K) cell k j) v ∧
      Stored m.z k j (if fmt v = (nodata : K) then none else some (fmt v)) := by
  obtain ⟨⟨h1, h2, h3, h4⟩, hcol, hrow, hfill, hval⟩ := C91_asc hs hp hc hx hb h
  rw [trunc_int] at h1 h2 h4
  have hpos : 0 < a.nrows := by
    rw [hrow 0]
    unfold toAsc raster at h
    by_contra hn
    rw [frame_eq hp hx] at h
    rw [if_neg (by rintro ⟨_, h2⟩; apply hn; simpa using h2)] at h
    simp at h
  obtain ⟨m, e, lx, ly, _, gx, gy, gz⟩ := C80_ascii hfill hpos
  refine ⟨m, e, lx, ly, ?_, ?_, ?_⟩
  · intro k hk; rw [gx k hk, h1, h3]
  · intro j hj; rw [gy j hj, h2, h3]
  · intro k hk j hj
    obtain ⟨v, e1, hv⟩ := hval k hk j hj
    have := gz k j _ hk hj e1
    rw [h4, trunc_int] at this
    exact ⟨v, hv, this⟩

/-- **C91.** What `Right` fixes: inside a single triangle the entry is determined. -/
theorem C91_unique {r : Results K} {expr : List K → K} {red : Reduction K} {nodata : K} {p : Pt K} {v : K} {t : ℕ × ℕ × ℕ} (ht : t ∈ r.vols)
    (hin : Contains r t p) (hone : ∀ t' ∈ r.vols, Meets r t' p → t' = t) (h : Right r expr red nodata p v) {va vb vc : K}
    (ha : ∀ x, NodeValue r expr red t.1 x → x = va) (hb : ∀ x, NodeValue r expr red t.2.1 x → x = vb) (hc : ∀ x, NodeValue r expr red t.2.2 x → x = vc) :
    Linear p (place r t.1) (place r t.2.1) (place r t.2.2) va vb vc v := by
  rcases h with ⟨t', ht', hm, xa, xb, xc, na, nb, nc, hl⟩ | ⟨_, hno⟩
  · obtain rfl := hone t' ht' hm
    rw [ha xa na, hb xb nb, hc xc nc] at hl
    exact hl
  · exact absurd hin (hno t ht)

/-- **C91.** A quantity that is a linear function of position at the points of the mesh is exported exactly at all grid points of the mesh, also on sides
shared by triangles. -/
theorem C91_exact {r : Results K} (hp : Proper r) {expr : List K → K} {red : Reduction K} {nodata : K} (A B C : K)
    (hlin : ∀ i < r.xs.length, ∀ x, NodeValue r expr red i x → x = A + B * (place r i).x + C * (place r i).y)
    {p : Pt K} {v : K} {t : ℕ × ℕ × ℕ} (ht : t ∈ r.vols) (hin : Contains r t p) (h : Right r expr red nodata p v) : v = A + B * p.x + C * p.y := by
  rcases h with ⟨t', ht', hm, xa, xb, xc, na, nb, nc, hl⟩ | ⟨_, hno⟩
  · obtain ⟨c1, c2, c3⟩ := hp.corner t' ht'
    refine linear_unique (hp.solid t' ht') hl ⟨A, B, C, hlin _ c1 _ na, hlin _ c2 _ nb, hlin _ c3 _ nc, rfl⟩
  · exact absurd hin (hno t ht)

/-- **C91.** No overshoot: where the triangles that meet a grid point contain it, the entry lies between the least and the greatest value of the quantity at
the points of the mesh, or is the value for missing data. -/
theorem C91_within {r : Results K} (hp : Proper r) {expr : List K → K} {red : Reduction K} {nodata lo hi : K}
    (hlo : ∀ i < r.xs.length, ∀ x, NodeValue r expr red i x → lo ≤ x ∧ x ≤ hi) {p : Pt K} {v : K}
    (hclear : ∀ t ∈ r.vols, Meets r t p → Contains r t p) (h : Right r expr red nodata p v) : (lo ≤ v ∧ v ≤ hi) ∨ v = nodata := by
  rcases h with ⟨t, ht, hm, xa, xb, xc, na, nb, nc, hl⟩ | ⟨h1, _⟩
  · left
    obtain ⟨c1, c2, c3⟩ := hp.corner t ht
    obtain ⟨u, v', w, hu, hv, hw, h1, hx, hy⟩ := hclear t ht hm
    obtain ⟨A, B, C, ea, eb, ec, e⟩ := hl
    have key : v = u * xa + v' * xb + w * xc := by
      rw [e, ea, eb, ec, hx, hy]
      linear_combination (-A) * h1
    obtain ⟨la, ua⟩ := hlo _ c1 _ na
    obtain ⟨lb, ub⟩ := hlo _ c2 _ nb
    obtain ⟨lc, uc⟩ := hlo _ c3 _ nc
    have k1 := mul_le_mul_of_nonneg_left la hu
    have k2 := mul_le_mul_of_nonneg_left lb hv
    have k3 := mul_le_mul_of_nonneg_left lc hw
    have m1 := mul_le_mul_of_nonneg_left ua hu
    have m2 := mul_le_mul_of_nonneg_left ub hv
    have m3 := mul_le_mul_of_nonneg_left uc hw
    have elo : lo = u * lo + v' * lo + w * lo := by linear_combination (-lo) * h1
    have ehi : hi = u * hi + v' * hi + w * hi := by linear_combination (-hi) * h1
    constructor <;> linarith
  · exact Or.inr h1

/-- **C91.** The default reduction: the value exported is the greatest over the stored times, taken after the expression has been evaluated. -/
theorem C91_greatest {r : Results K} {expr : List K → K} {i : ℕ} {v : K} (ht : ∃ q ∈ r.vars, q.isTimed = true) (hnt : 0 < r.nt)
    (h : NodeValue r expr (.fn greatest) i v) :
    (∃ t < r.nt, v = expr (r.vars.map (Var.at t i))) ∧ ∀ t < r.nt, expr (r.vars.map (Var.at t i)) ≤ v := by
  have hv : v = greatest (series r expr i) := h.1 ht
  have hne : series r expr i ≠ [] := by
    unfold series
    intro h
    have := congrArg List.length h
    simp at this
    omega
  obtain ⟨h1, h2⟩ := greatest_is hne
  rw [← hv] at h1 h2
  constructor
  · unfold series at h1
    obtain ⟨t, ht, e⟩ := List.mem_map.1 h1
    exact ⟨t, List.mem_range.1 ht, e.symm⟩
  · intro t ht
    exact h2 _ (List.mem_map.2 ⟨t, List.mem_range.2 ht, rfl⟩)

/-- **C91.** The depth: with a fixed bed the default reduction exports at a point of the mesh the greatest stage over the stored times less the bed. -/
theorem C91_depth {r : Results K} {bed : List K} {stage : List (List K)} (hv : r.vars = [.static bed, .timed stage]) (hnt : 0 < r.nt) {i : ℕ} {v : K}
    (h : NodeValue r depthExpr (.fn greatest) i v) :
    (∃ t < r.nt, v + bed.getD i 0 = (stage.getD t []).getD i 0) ∧ ∀ t < r.nt, (stage.getD t []).getD i 0 ≤ v + bed.getD i 0 := by
  obtain ⟨⟨t, ht, e⟩, h2⟩ := C91_greatest (by rw [hv]; exact ⟨.timed stage, by simp, rfl⟩) hnt h
  have key : ∀ t, depthExpr (r.vars.map (Var.at t i)) = (stage.getD t []).getD i 0 - bed.getD i 0 := by
    intro t
    rw [hv]
    rfl
  refine ⟨⟨t, ht, by rw [e, key]; ring⟩, fun t ht => ?_⟩
  have := h2 t ht
  rw [key] at this
  linarith

/-- **C91.** The formula for the speed: for positive depth it is the true speed up to a relative error of at most `1e-6 / depth²`, and never above it. -/
theorem C91_speed {sq : K → K} (hs : IsSqrt sq) {e s m n : K} (h : e < s) :
    speedExpr sq [e, s, m, n] ≤ sq (m * m + n * n) / (s - e) ∧
    sq (m * m + n * n) / (s - e) * (1 - 1 / 10 ^ 6 / ((s - e) * (s - e))) ≤ speedExpr sq [e, s, m, n] := by
  have hd : 0 < s - e := by linarith
  have hM : 0 ≤ sq (m * m + n * n) := (hs _ (add_nonneg (mul_self_nonneg _) (mul_self_nonneg _))).1
  have hex : speedExpr sq [e, s, m, n] = sq (m * m + n * n) / (s - e + 1 / 10 ^ 6 / (s - e)) := rfl
  rw [hex]
  generalize sq (m * m + n * n) = M at *
  generalize s - e = d at *
  have hc : (0 : K) < 1 / 10 ^ 6 := by positivity
  generalize (1 / 10 ^ 6 : K) = c at *
  have hden : 0 < d + c / d := add_pos hd (div_pos hc hd)
  constructor
  · exact div_le_div_of_nonneg_left hM hd (by linarith [div_pos hc hd])
  · rw [le_div_iff₀ hden]
    have : M / d * (1 - c / (d * d)) * (d + c / d) = M * (1 - (c / (d * d)) * (c / (d * d))) := by field_simp; ring
    rw [this]
    have h2 : 0 ≤ (c / (d * d)) * (c / (d * d)) := mul_self_nonneg _
    nlinarith

end Verif.Dem
