import Verif.Compose.Spec
import Mathlib.Tactic.Linarith
import Mathlib.Tactic.Ring
import Mathlib.Tactic.FieldSimp
import Mathlib.Tactic.NormNum

/-! # C93: values of a raster at points -/

set_option linter.unusedSectionVars false

namespace Verif.Compose

open Verif.Polygon

variable {K : Type*} [Field K] [LinearOrder K] [IsStrictOrderedRing K] [FloorRing K]

/-! ## Helper lemmas -/

theorem missing_iff {g : Grid K} {v : K} : g.missing v = true ↔ Marks g v := by
  unfold Grid.missing Marks
  cases g.nodata with
  | none => simp
  | some m => simp

theorem between_spec {n : ℕ} {px : K} (h0 : 0 ≤ px) (hn : px < n) :
    ∃ (l u : ℕ) (t : K), between n px = ((l : ℤ), (u : ℤ), t) ∧ u < n ∧ l ≤ u ∧ u ≤ l + 1 ∧ 0 ≤ t ∧ t ≤ 1 ∧ t * ((u : K) - l - 1) = 0 ∧
      (1 / 2 ≤ px → px ≤ n - 1 / 2 → px = l + 1 / 2 + t) ∧ (⌊px⌋.toNat = l ∨ ⌊px⌋.toNat = u) := by
  have hf0 : 0 ≤ ⌊px⌋ := Int.floor_nonneg.2 h0
  obtain ⟨f, hf⟩ := Int.eq_ofNat_of_zero_le hf0
  have hfl : (f : K) ≤ px := by have := Int.floor_le px; rw [hf] at this; simpa using this
  have hfu : px < f + 1 := by have := Int.lt_floor_add_one px; rw [hf] at this; simpa using this
  have hfn : f < n := by
    have : (f : K) < n := lt_of_le_of_lt hfl hn
    exact_mod_cast this
  unfold between
  simp only
  rw [hf]
  by_cases hc : px - ((f : ℤ) : K) > 1 / 2
  · rw [if_pos hc]
    have hc' : px - (f : K) > 1 / 2 := by simpa using hc
    by_cases hl : f + 1 < n
    · refine ⟨f, f + 1, px - (f + 1 / 2), ?_, hl, by omega, le_refl _, by linarith, by linarith, by push_cast; ring, fun _ _ => by ring, Or.inl (by simp)⟩
      have hm : min ((f : ℤ) + 1) ((n : ℤ) - 1) = (f : ℤ) + 1 := by omega
      rw [hm, if_pos (by omega)]
      push_cast
      rfl
    · refine ⟨f, f, 0, ?_, hfn, le_refl _, by omega, le_refl _, zero_le_one, by ring, ?_, Or.inl (by simp)⟩
      · have hm : min ((f : ℤ) + 1) ((n : ℤ) - 1) = (f : ℤ) := by omega
        rw [hm, if_neg (by omega)]
      · intro _ h2
        exfalso
        have : (n : K) = f + 1 := by have : n = f + 1 := by omega
                                     rw [this]; push_cast; ring
        linarith
  · rw [if_neg hc]
    have hc' : px - (f : K) ≤ 1 / 2 := by simpa using not_lt.1 hc
    cases f with
    | zero =>
      refine ⟨0, 0, 0, ?_, hfn, le_refl _, by omega, le_refl _, zero_le_one, by ring, ?_, Or.inl (by simp)⟩
      · simp
      · intro h1 _
        simp at hc' ⊢
        apply le_antisymm
        · exact hc'
        · simpa using h1
    | succ f =>
      have hp : ((f + 1 : ℕ) : K) = f + 1 := by push_cast; ring
      rw [hp] at hc' hfl hfu
      refine ⟨f, f + 1, px - (f + 1 / 2), ?_, hfn, by omega, le_refl _, by linarith, by linarith, by push_cast; ring, fun _ _ => by ring, Or.inr (by simp)⟩
      have hm : max (((f + 1 : ℕ) : ℤ) - 1) 0 = (f : ℤ) := by omega
      rw [hm, if_pos (by omega)]
      push_cast
      rfl

theorem px_iff {x0 w x : K} (hw : 0 < w) {a : K} : (a ≤ (x - x0) / w ↔ x0 + a * w ≤ x) ∧ ((x - x0) / w < a ↔ x < x0 + a * w) := by
  refine ⟨?_, ?_⟩
  · rw [le_div_iff₀ hw]; constructor <;> intro h <;> linarith
  · rw [div_lt_iff₀ hw]; constructor <;> intro h <;> linarith

theorem py_iff {y0 h y : K} (hh : h < 0) {a : K} : (a ≤ (y - y0) / h ↔ y ≤ y0 + a * h) ∧ ((y - y0) / h < a ↔ y0 + a * h < y) := by
  refine ⟨?_, ?_⟩
  · rw [le_div_iff_of_neg hh]; constructor <;> intro h <;> linarith
  · rw [div_lt_iff_of_neg hh]; constructor <;> intro h <;> linarith

theorem pixel_floor {g : Grid K} (hw : 0 < g.width) (hh : g.height < 0) {row col : ℕ} {p : Pt K} (h : InPixel g row col p) :
    ⌊(p.x - g.x0) / g.width⌋ = col ∧ ⌊(p.y - g.y0) / g.height⌋ = row ∧
    0 ≤ (p.x - g.x0) / g.width ∧ (p.x - g.x0) / g.width < g.ncols ∧ 0 ≤ (p.y - g.y0) / g.height ∧ (p.y - g.y0) / g.height < g.nrows := by
  obtain ⟨hr, hc, h1, h2, h3, h4⟩ := h
  have a1 := (px_iff (x0 := g.x0) (x := p.x) hw (a := (col : K))).1.2 h1
  have a2 := (px_iff (x0 := g.x0) (x := p.x) hw (a := (col : K) + 1)).2.2 h2
  have a3 := (py_iff (y0 := g.y0) (y := p.y) hh (a := (row : K) + 1)).2.2 h3
  have a4 := (py_iff (y0 := g.y0) (y := p.y) hh (a := (row : K))).1.2 h4
  have c1 : ((col : K) + 1) ≤ g.ncols := by exact_mod_cast hc
  have c2 : ((row : K) + 1) ≤ g.nrows := by exact_mod_cast hr
  have d1 : (0 : K) ≤ col := Nat.cast_nonneg _
  have d2 : (0 : K) ≤ row := Nat.cast_nonneg _
  refine ⟨?_, ?_, le_trans d1 a1, lt_of_lt_of_le a2 c1, le_trans d2 a4, lt_of_lt_of_le a3 c2⟩
  · rw [Int.floor_eq_iff]; push_cast; exact ⟨a1, a2⟩
  · rw [Int.floor_eq_iff]; push_cast; exact ⟨a4, a3⟩

/-- Inside the extent the bilinear value is that of the formula. -/
theorem bilinear_eq {g : Grid K} {p : Pt K} (h0 : 0 ≤ (p.x - g.x0) / g.width) (h1 : (p.x - g.x0) / g.width < g.ncols) (h2 : 0 ≤ (p.y - g.y0) / g.height)
    (h3 : (p.y - g.y0) / g.height < g.nrows) :
    ∃ (l u l' u' : ℕ) (x y : K), u < g.ncols ∧ l ≤ u ∧ u ≤ l + 1 ∧ u' < g.nrows ∧ l' ≤ u' ∧ u' ≤ l' + 1 ∧ 0 ≤ x ∧ x ≤ 1 ∧ 0 ≤ y ∧ y ≤ 1 ∧
      x * ((u : K) - l - 1) = 0 ∧ y * ((u' : K) - l' - 1) = 0 ∧
      (1 / 2 ≤ (p.x - g.x0) / g.width → (p.x - g.x0) / g.width ≤ g.ncols - 1 / 2 → (p.x - g.x0) / g.width = l + 1 / 2 + x) ∧
      (1 / 2 ≤ (p.y - g.y0) / g.height → (p.y - g.y0) / g.height ≤ g.nrows - 1 / 2 → (p.y - g.y0) / g.height = l' + 1 / 2 + y) ∧
      (⌊(p.x - g.x0) / g.width⌋.toNat = l ∨ ⌊(p.x - g.x0) / g.width⌋.toNat = u) ∧ (⌊(p.y - g.y0) / g.height⌋.toNat = l' ∨ ⌊(p.y - g.y0) / g.height⌋.toNat = u') ∧
      g.value true p = some (if [g.pixel l' l, g.pixel u' l, g.pixel l' u, g.pixel u' u].any g.missing then none else
        some (g.pixel l' l * (1 - x) * (1 - y) + g.pixel u' l * (1 - x) * y + g.pixel l' u * x * (1 - y) + g.pixel u' u * x * y)) := by
  obtain ⟨l, u, x, e, a1, a2, a3, a4, a5, a6, a7, a8⟩ := between_spec h0 h1
  obtain ⟨l', u', y, e', b1, b2, b3, b4, b5, b6, b7, b8⟩ := between_spec h2 h3
  refine ⟨l, u, l', u', x, y, a1, a2, a3, b1, b2, b3, a4, a5, b4, b5, a6, b6, a7, b7, a8, b8, ?_⟩
  unfold Grid.value
  simp only
  rw [if_pos ⟨h1, h0, h3, h2⟩, if_pos trivial, e, e']
  simp only
  rw [if_neg (not_not.2 ⟨a4, a5⟩), if_neg (not_not.2 ⟨b4, b5⟩)]
  rfl

theorem mean_bound {a b c d x y lo hi : K} (hx : 0 ≤ x) (hx1 : x ≤ 1) (hy : 0 ≤ y) (hy1 : y ≤ 1)
    (ha : lo ≤ a ∧ a ≤ hi) (hb : lo ≤ b ∧ b ≤ hi) (hc : lo ≤ c ∧ c ≤ hi) (hd : lo ≤ d ∧ d ≤ hi) :
    lo ≤ a * (1 - x) * (1 - y) + b * (1 - x) * y + c * x * (1 - y) + d * x * y ∧ a * (1 - x) * (1 - y) + b * (1 - x) * y + c * x * (1 - y) + d * x * y ≤ hi := by
  have w1 : 0 ≤ (1 - x) * (1 - y) := mul_nonneg (by linarith) (by linarith)
  have w2 : 0 ≤ (1 - x) * y := mul_nonneg (by linarith) hy
  have w3 : 0 ≤ x * (1 - y) := mul_nonneg hx (by linarith)
  have w4 : 0 ≤ x * y := mul_nonneg hx hy
  have hs : (1 - x) * (1 - y) + (1 - x) * y + x * (1 - y) + x * y = 1 := by ring
  constructor
  · have := mul_le_mul_of_nonneg_right ha.1 w1
    have := mul_le_mul_of_nonneg_right hb.1 w2
    have := mul_le_mul_of_nonneg_right hc.1 w3
    have := mul_le_mul_of_nonneg_right hd.1 w4
    have hl : lo = lo * ((1 - x) * (1 - y)) + lo * ((1 - x) * y) + lo * (x * (1 - y)) + lo * (x * y) := by linear_combination (-lo) * hs
    linarith
  · have := mul_le_mul_of_nonneg_right ha.2 w1
    have := mul_le_mul_of_nonneg_right hb.2 w2
    have := mul_le_mul_of_nonneg_right hc.2 w3
    have := mul_le_mul_of_nonneg_right hd.2 w4
    have hl : hi = hi * ((1 - x) * (1 - y)) + hi * ((1 - x) * y) + hi * (x * (1 - y)) + hi * (x * y) := by linear_combination (-hi) * hs
    linarith

/-! ## The properties -/

/-- **C93.** 'pixel': the value of the pixel the point is in; nothing where that marks missing data. -/
theorem C93_pixel (g : Grid K) (hw : 0 < g.width) (hh : g.height < 0) (row col : ℕ) (p : Pt K) (h : InPixel g row col p) :
    (Marks g (g.pixel row col) → g.value false p = some none) ∧ (¬ Marks g (g.pixel row col) → g.value false p = some (some (g.pixel row col))) := by
  obtain ⟨f1, f2, h0, h1, h2, h3⟩ := pixel_floor hw hh h
  have : g.value false p = some (if g.missing (g.pixel row col) then none else some (g.pixel row col)) := by
    unfold Grid.value
    simp only
    rw [if_pos ⟨h1, h0, h3, h2⟩, f1, f2]
    simp
  rw [this, ← missing_iff]
  exact ⟨fun h => by rw [if_pos h], fun h => by rw [if_neg h]⟩

/-- **C93.** Outside the raster both methods raise an exception. -/
theorem C93_outside (g : Grid K) (hw : 0 < g.width) (hh : g.height < 0) (b : Bool) (p : Pt K) (h : ∀ row col, ¬ InPixel g row col p) : g.value b p = none := by
  unfold Grid.value
  simp only
  rw [if_neg]
  rintro ⟨h1, h0, h3, h2⟩
  obtain ⟨c, hc⟩ := Int.eq_ofNat_of_zero_le (Int.floor_nonneg.2 h0)
  obtain ⟨r, hr⟩ := Int.eq_ofNat_of_zero_le (Int.floor_nonneg.2 h2)
  have c1 := Int.floor_le ((p.x - g.x0) / g.width)
  have c2 := Int.lt_floor_add_one ((p.x - g.x0) / g.width)
  have r1 := Int.floor_le ((p.y - g.y0) / g.height)
  have r2 := Int.lt_floor_add_one ((p.y - g.y0) / g.height)
  rw [hc] at c1 c2
  rw [hr] at r1 r2
  simp only [Int.ofNat_eq_natCast, Int.cast_natCast] at c1 c2 r1 r2
  refine h r c ⟨?_, ?_, (px_iff hw).1.1 c1, (px_iff hw).2.1 c2, (py_iff hh).2.1 r2, (py_iff hh).1.1 r1⟩
  · have : (r : K) < g.nrows := lt_of_le_of_lt r1 h3
    exact_mod_cast this
  · have : (c : K) < g.ncols := lt_of_le_of_lt c1 h1
    exact_mod_cast this

/-- **C93.** 'bilinear' inside the raster never raises an exception; a value lies between those of two of the pixels at most one row and column away,
and is missing only if such a pixel marks missing data. -/
theorem C93_within (g : Grid K) (hw : 0 < g.width) (hh : g.height < 0) (row col : ℕ) (p : Pt K) (h : InPixel g row col p) :
    ∃ r, g.value true p = some r ∧
      (∀ v, r = some v → (∀ lo hi, (∀ row' col', row' < g.nrows → col' < g.ncols → row' ≤ row + 1 → row ≤ row' + 1 → col' ≤ col + 1 → col ≤ col' + 1 →
        lo ≤ g.pixel row' col' ∧ g.pixel row' col' ≤ hi) → lo ≤ v ∧ v ≤ hi) ∧ ¬ Marks g (g.pixel row col)) ∧
      (r = none → ∃ row' col', row' < g.nrows ∧ col' < g.ncols ∧ row' ≤ row + 1 ∧ row ≤ row' + 1 ∧ col' ≤ col + 1 ∧ col ≤ col' + 1 ∧ Marks g (g.pixel row' col')) := by
  obtain ⟨f1, f2, h0, h1, h2, h3⟩ := pixel_floor hw hh h
  obtain ⟨l, u, l', u', x, y, a1, a2, a3, b1, b2, b3, x0, x1, y0, y1, _, _, _, _, fx, fy, e⟩ := bilinear_eq h0 h1 h2 h3
  rw [f1] at fx
  rw [f2] at fy
  simp only [Int.toNat_natCast] at fx fy
  refine ⟨_, e, ?_, ?_⟩
  · intro v hv
    by_cases hm : [g.pixel l' l, g.pixel u' l, g.pixel l' u, g.pixel u' u].any g.missing = true
    · rw [if_pos hm] at hv; simp at hv
    · rw [if_neg hm, Option.some.injEq] at hv
      refine ⟨?_, ?_⟩
      · intro lo hi hb
        rw [← hv]
        refine mean_bound x0 x1 y0 y1 (hb l' l ?_ ?_ ?_ ?_ ?_ ?_) (hb u' l ?_ ?_ ?_ ?_ ?_ ?_) (hb l' u ?_ ?_ ?_ ?_ ?_ ?_) (hb u' u ?_ ?_ ?_ ?_ ?_ ?_) <;> omega
      · intro hmk
        apply hm
        rw [List.any_eq_true]
        refine ⟨_, ?_, missing_iff.2 hmk⟩
        rcases fx with rfl | rfl <;> rcases fy with rfl | rfl <;> simp
  · intro hn
    by_cases hm : [g.pixel l' l, g.pixel u' l, g.pixel l' u, g.pixel u' u].any g.missing = true
    · simp only [List.any_cons, List.any_nil, Bool.or_eq_true, Bool.false_eq_true, or_false, missing_iff] at hm
      rcases hm with hm | hm | hm | hm
      · exact ⟨l', l, by omega, by omega, by omega, by omega, by omega, by omega, hm⟩
      · exact ⟨u', l, by omega, by omega, by omega, by omega, by omega, by omega, hm⟩
      · exact ⟨l', u, by omega, by omega, by omega, by omega, by omega, by omega, hm⟩
      · exact ⟨u', u, by omega, by omega, by omega, by omega, by omega, by omega, hm⟩
    · rw [if_neg hm] at hn; simp at hn

/-- **C93.** 'bilinear' is exact between the centres of the outer pixels for fields `A + B x + C y + D x y`, when no pixel marks missing data. -/
theorem C93_exact (g : Grid K) (hw : 0 < g.width) (hh : g.height < 0) (hc : 0 < g.ncols) (hr : 0 < g.nrows) (A B C D : K)
    (hpix : ∀ row col, row < g.nrows → col < g.ncols → g.pixel row col = A + B * (centre g row col).x + C * (centre g row col).y + D * (centre g row col).x * (centre g row col).y)
    (hm : ∀ row col, row < g.nrows → col < g.ncols → ¬ Marks g (g.pixel row col)) (p : Pt K)
    (hx1 : (centre g 0 0).x ≤ p.x) (hx2 : p.x ≤ (centre g 0 (g.ncols - 1)).x) (hy1 : (centre g (g.nrows - 1) 0).y ≤ p.y) (hy2 : p.y ≤ (centre g 0 0).y) :
    g.value true p = some (some (A + B * p.x + C * p.y + D * p.x * p.y)) := by
  unfold centre at hx1 hx2 hy1 hy2
  simp only [Nat.cast_zero, zero_add] at hx1 hx2 hy1 hy2
  have hcc : ((g.ncols - 1 : ℕ) : K) = g.ncols - 1 := by rw [Nat.cast_sub (by omega)]; simp
  have hrr : ((g.nrows - 1 : ℕ) : K) = g.nrows - 1 := by rw [Nat.cast_sub (by omega)]; simp
  rw [hcc] at hx2
  rw [hrr] at hy1
  have p1 : 1 / 2 ≤ (p.x - g.x0) / g.width := (px_iff hw).1.2 hx1
  have p2 : (p.x - g.x0) / g.width ≤ g.ncols - 1 / 2 := by
    rw [div_le_iff₀ hw]; linarith
  have q1 : 1 / 2 ≤ (p.y - g.y0) / g.height := (py_iff hh).1.2 hy2
  have q2 : (p.y - g.y0) / g.height ≤ g.nrows - 1 / 2 := by
    rw [div_le_iff_of_neg hh]; linarith
  obtain ⟨l, u, l', u', x, y, a1, a2, a3, b1, b2, b3, x0, x1, y0, y1, z1, z2, e1, e2, _, _, e⟩ :=
    bilinear_eq (g := g) (p := p) (by linarith) (by linarith) (by linarith) (by linarith)
  have hno : ¬ [g.pixel l' l, g.pixel u' l, g.pixel l' u, g.pixel u' u].any g.missing = true := by
    simp only [List.any_cons, List.any_nil, Bool.or_eq_true, Bool.false_eq_true, or_false, missing_iff, not_or]
    exact ⟨hm _ _ (by omega) (by omega), hm _ _ (by omega) (by omega), hm _ _ (by omega) (by omega), hm _ _ (by omega) (by omega)⟩
  rw [e, if_neg hno]
  have k1 := e1 p1 p2
  have k2 := e2 q1 q2
  rw [div_eq_iff (ne_of_gt hw)] at k1
  rw [div_eq_iff (ne_of_lt hh)] at k2
  have X : p.x = g.x0 + (l + 1 / 2 + x) * g.width := by linear_combination k1
  have Y : p.y = g.y0 + (l' + 1 / 2 + y) * g.height := by linear_combination k2
  rw [hpix l' l (by omega) (by omega), hpix u' l (by omega) (by omega), hpix l' u (by omega) (by omega), hpix u' u (by omega) (by omega), X, Y]
  unfold centre
  simp only [Option.some.injEq]
  have hx' : x * (u : K) = x * l + x := by linear_combination z1
  have hy' : y * (u' : K) = y * l' + y := by linear_combination z2
  linear_combination (B * g.width + D * g.width * (g.y0 + (l' + 1 / 2) * g.height) * (1 - y) + D * g.width * (g.y0 + (u' + 1 / 2) * g.height) * y) * hx' +
    (C * g.height + D * g.height * (g.x0 + (l + 1 / 2) * g.width) + D * g.height * g.width * x) * hy'

/-- **C93.** At the centre of a pixel 'bilinear' gives the value of the pixel, when no pixel marks missing data. -/
theorem C93_centre (g : Grid K) (hw : 0 < g.width) (hh : g.height < 0) (row col : ℕ) (hr : row < g.nrows) (hc : col < g.ncols)
    (hm : ∀ row col, row < g.nrows → col < g.ncols → ¬ Marks g (g.pixel row col)) : g.value true (centre g row col) = some (some (g.pixel row col)) := by
  have hcx : ((centre g row col).x - g.x0) / g.width = col + 1 / 2 := by
    unfold centre; simp only; field_simp; ring
  have hcy : ((centre g row col).y - g.y0) / g.height = row + 1 / 2 := by
    have : g.height ≠ 0 := ne_of_lt hh
    unfold centre; simp only; field_simp; ring
  have d1 : (0 : K) ≤ col := Nat.cast_nonneg _
  have d2 : (0 : K) ≤ row := Nat.cast_nonneg _
  have c1 : ((col : K) + 1) ≤ g.ncols := by exact_mod_cast hc
  have c2 : ((row : K) + 1) ≤ g.nrows := by exact_mod_cast hr
  obtain ⟨l, u, l', u', x, y, a1, a2, a3, b1, b2, b3, x0, x1, y0, y1, z1, z2, e1, e2, _, _, e⟩ :=
    bilinear_eq (g := g) (p := centre g row col) (by rw [hcx]; linarith) (by rw [hcx]; linarith) (by rw [hcy]; linarith) (by rw [hcy]; linarith)
  rw [hcx] at e1
  rw [hcy] at e2
  have k1 := e1 (by linarith) (by linarith)
  have k2 := e2 (by linarith) (by linarith)
  have hno : ¬ [g.pixel l' l, g.pixel u' l, g.pixel l' u, g.pixel u' u].any g.missing = true := by
    simp only [List.any_cons, List.any_nil, Bool.or_eq_true, Bool.false_eq_true, or_false, missing_iff, not_or]
    exact ⟨hm _ _ (by omega) (by omega), hm _ _ (by omega) (by omega), hm _ _ (by omega) (by omega), hm _ _ (by omega) (by omega)⟩
  rw [e, if_neg hno]
  have key : ∀ {l u c : ℕ} {x : K}, (c : K) + 1 / 2 = l + 1 / 2 + x → 0 ≤ x → x ≤ 1 → x * ((u : K) - l - 1) = 0 → (x = 0 ∧ l = c) ∨ (x = 1 ∧ u = c) := by
    intro l u c x h h0 h1 hz
    have hx : x = ((c : ℤ) - (l : ℤ) : ℤ) := by push_cast; linarith
    have i0 : (0 : ℤ) ≤ (c : ℤ) - l := by rw [hx] at h0; exact_mod_cast h0
    have i1 : (c : ℤ) - l ≤ 1 := by rw [hx] at h1; exact_mod_cast h1
    have : (c : ℤ) - l = 0 ∨ (c : ℤ) - l = 1 := by omega
    rcases this with hh | hh
    · left
      rw [hh] at hx
      exact ⟨by simpa using hx, by omega⟩
    · right
      rw [hh] at hx
      have hx' : x = 1 := by simpa using hx
      refine ⟨hx', ?_⟩
      rw [hx', one_mul] at hz
      have : (u : K) = (l : K) + 1 := by linarith
      have : u = l + 1 := by exact_mod_cast this
      omega
  rcases key k1 x0 x1 z1 with ⟨rfl, rfl⟩ | ⟨rfl, rfl⟩ <;> rcases key k2 y0 y1 z2 with ⟨rfl, rfl⟩ | ⟨rfl, rfl⟩ <;> simp

/-- **C93.** A pixel with exactly the value for missing data is recognised, unless that value is zero. -/
theorem C93_missing (g : Grid K) (hw : 0 < g.width) (hh : g.height < 0) (m : K) (hn : g.nodata = some m) (h0 : m ≠ 0) (row col : ℕ) (p : Pt K) (h : InPixel g row col p)
    (hv : g.pixel row col = m) : g.value false p = some none ∧ g.value true p = some none := by
  have hmk : Marks g (g.pixel row col) := by
    refine ⟨m, hn, ?_⟩
    rw [hv, sub_self, abs_zero]
    have := abs_pos.2 h0
    positivity
  refine ⟨(C93_pixel g hw hh row col p h).1 hmk, ?_⟩
  obtain ⟨r, e, h1, h2⟩ := C93_within g hw hh row col p h
  cases r with
  | none => exact e
  | some v => exact absurd hmk (h1 v rfl).2

/-- **C93, a limit of the code.** If the value for missing data is zero, no pixel is ever taken as missing. -/
theorem C93_zero (g : Grid K) (hw : 0 < g.width) (hh : g.height < 0) (hn : g.nodata = some 0) (row col : ℕ) (p : Pt K) (h : InPixel g row col p) :
    g.value false p = some (some (g.pixel row col)) ∧ g.value true p ≠ some none := by
  have hno : ∀ v, ¬ Marks g v := by
    rintro v ⟨m, hm, hlt⟩
    rw [hn, Option.some.injEq] at hm
    subst hm
    rw [abs_zero, mul_zero] at hlt
    exact absurd hlt (not_lt.2 (abs_nonneg _))
  refine ⟨(C93_pixel g hw hh row col p h).2 (hno _), fun he => ?_⟩
  obtain ⟨r, e, h1, h2⟩ := C93_within g hw hh row col p h
  rw [he, Option.some.injEq] at e
  obtain ⟨_, _, _, _, _, _, _, _, hmk⟩ := h2 e.symm
  exact hno _ hmk

end Verif.Compose
