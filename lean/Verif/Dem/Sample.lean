import Verif.Dem.Props
import Mathlib.Analysis.Real.Sqrt
import Mathlib.Data.Rat.Floor
import Mathlib.Algebra.Order.Archimedean.Real.Basic

/-! # C91: the corner of the text grid, and cases meeting the hypotheses -/

set_option linter.unusedSectionVars false

namespace Verif.Dem

open Verif.Polygon Verif.Raster

variable {K : Type*} [Field K] [LinearOrder K] [IsStrictOrderedRing K]

theorem trunc_near [FloorRing K] (v : K) : |(trunc v : K) - v| < 1 := by
  unfold trunc
  rw [abs_lt]
  split_ifs with h
  · have h1 := Int.floor_le v
    have h2 := Int.lt_floor_add_one v
    constructor <;> linarith
  · have h1 := Int.le_ceil v
    have h2 := Int.ceil_lt_add_one v
    constructor <;> linarith

/-- **C91, disagreement.** A text grid names the corner of the map correctly only if that is a whole number; otherwise the whole map is displaced, by less than
one unit. -/
theorem C91_corner [FloorRing K] {sq fmt : K → K} (hs : IsSqrt sq) {r : Results K} (hp : Proper r) {expr : List K → K} {red : Reduction K} {cell nodata : K}
    (hc : 0 < cell) {w : Window K} {west east south north : K} (hx : Extent r w west east south north) {b : ℕ} (hb : 0 < b) {a : Asc K}
    (h : toAsc sq fmt r expr red cell nodata w b = some a) :
    (a.xll = west ↔ ∃ n : ℤ, west = (n : K)) ∧ (a.yll = south ↔ ∃ n : ℤ, south = (n : K)) ∧ |a.xll - west| < 1 ∧ |a.yll - south| < 1 := by
  obtain ⟨⟨h1, h2, -, -⟩, -⟩ := C91_asc hs hp hc hx hb h
  rw [h1, h2]
  have key : ∀ v : K, (trunc v : K) = v ↔ ∃ n : ℤ, v = (n : K) := by
    intro v
    constructor
    · intro h; exact ⟨trunc v, h.symm⟩
    · rintro ⟨n, rfl⟩; rw [trunc_int]
  exact ⟨key _, key _, trunc_near _, trunc_near _⟩

/-! ## Sample -/

/-- Two triangles on the square of side 2 with its corner at (1/2, 0); elevation fixed, stage at two times. -/
def square (K : Type*) [Field K] : Results K where
  xs := [0, 2, 0, 2]
  ys := [0, 0, 2, 2]
  vols := [(0, 1, 2), (1, 3, 2)]
  nt := 2
  vars := [.static [0, 2, 4, 6], .timed [[1, 3, 5, 7], [2, 2, 5, 9]]]
  xll := 1 / 2
  yll := 0

theorem square_proper : Proper (square ℝ) where
  size := rfl
  some := by simp [square]
  corner := by simp [square]
  solid := by
    intro v hv
    simp only [square, List.mem_cons, List.not_mem_nil, or_false] at hv
    rcases hv with rfl | rfl <;> norm_num [Flat, place, square]
  full := by
    intro v hv
    simp only [square, List.mem_cons, List.not_mem_nil, or_false] at hv
    rcases hv with rfl | rfl <;> simp [Var.Full, square]

theorem square_extent : Extent (square ℝ) {} (1 / 2) (5 / 2) 0 2 where
  west := Or.inr ⟨rfl, by norm_num [Least, square]⟩
  east := Or.inr ⟨rfl, by norm_num [Greatest, square]⟩
  south := Or.inr ⟨rfl, by norm_num [Least, square]⟩
  north := Or.inr ⟨rfl, by norm_num [Greatest, square]⟩

theorem real_sqrt : IsSqrt Real.sqrt := fun x hx => ⟨Real.sqrt_nonneg x, Real.mul_self_sqrt hx⟩

/-- The greatest depth, cells of size 1. -/
example : (toErs Real.sqrt (square ℝ) depthExpr (.fn greatest) 1 (-9999) {} 3).isSome = true := by
  unfold toErs
  rw [Option.isSome_map]
  exact (C91_defined square_proper square_extent (by norm_num)).2 ⟨by norm_num, by norm_num⟩

/-- The centre of the square lies in both triangles. -/
example : Contains (square ℝ) (0, 1, 2) (position (1 / 2) 0 1 1 1) ∧ Contains (square ℝ) (1, 3, 2) (position (1 / 2) 0 1 1 1) := by
  constructor
  · exact ⟨0, 1 / 2, 1 / 2, by norm_num, by norm_num, by norm_num, by norm_num, by norm_num [position, place, square], by norm_num [position, place, square]⟩
  · exact ⟨1 / 2, 0, 1 / 2, by norm_num, by norm_num, by norm_num, by norm_num, by norm_num [position, place, square], by norm_num [position, place, square]⟩

/-- The elevation of the square is the linear function `x - 1/2 + 2 y`. -/
example : ∀ i < (square ℝ).xs.length, ∀ x, NodeValue (square ℝ) (fun l => l.getD 0 0) (.index 0) i x →
    x = -1 / 2 + 1 * (place (square ℝ) i).x + 2 * (place (square ℝ) i).y := by
  intro i hi x h
  have hx : Reduced (.index 0) (series (square ℝ) (fun l => l.getD 0 0) i) x := h.1 ⟨.timed [[1, 3, 5, 7], [2, 2, 5, 9]], by simp [square], rfl⟩
  rcases hx with ⟨k, hk, e⟩ | ⟨k, hk, hk2, e⟩
  · have : k = 0 := by omega
    subst this
    have hi' : i < 4 := hi
    have : i = 0 ∨ i = 1 ∨ i = 2 ∨ i = 3 := by omega
    rcases this with rfl | rfl | rfl | rfl <;>
    · simp [series, square, Var.at, List.range_succ] at e
      rw [← e]
      norm_num [place, square]
  · have : (series (square ℝ) (fun l => l.getD 0 0) i).length = 2 := by simp [series, square]
    rw [this] at hk hk2
    omega

/-- A map with a whole corner. -/
example : Extent (square ℝ) { eastMin := some 1 } ((1 : ℤ) : ℝ) (5 / 2) ((0 : ℤ) : ℝ) 2 where
  west := Or.inl (by norm_num)
  east := Or.inr ⟨rfl, by norm_num [Greatest, square]⟩
  south := Or.inr ⟨rfl, by norm_num [Least, square]⟩
  north := Or.inr ⟨rfl, by norm_num [Greatest, square]⟩

/-- The corner 1/2 of the sample is not a whole number. -/
example : ¬ ∃ n : ℤ, (1 / 2 : ℝ) = (n : ℝ) := by
  rintro ⟨n, h⟩
  have : (1 : ℝ) = ((2 * n : ℤ) : ℝ) := by push_cast; linarith
  have : (1 : ℤ) = 2 * n := by exact_mod_cast this
  omega

/-- A stand-in for the square root that is right at the numbers needed here up to the factor of the normals (which cancels). -/
def sqTable (x : ℚ) : ℚ := if x = 4 then 2 else if x = 1 then 1 else if x = 2 then 7 / 5 else if x = 8 then 14 / 5 else x

/-- The grid as computed: rows from the south, the greatest depth over the two times. -/
example : (raster sqTable (square ℚ) depthExpr (.fn greatest) 1 (-9999) {} 3).map Prod.snd =
    some [2, 3 / 2, 1, 3 / 2, 1, 2, 1, 2, 3] := by decide +kernel

/-- A larger map asked for: the eastern column lies outside the mesh. -/
example : (raster sqTable (square ℚ) depthExpr (.fn greatest) 1 (-9999) { eastMax := some (7 / 2), northMax := some 1 } 10000).map
      (fun g => (g.1.ncols, g.1.nrows, g.2)) =
    some (4, 2, [2, 3 / 2, 1, -9999, 3 / 2, 1, 2, -9999]) := by decide +kernel

/-- The text file of the same map: rows from the north, the corner 1/2 written as 0. -/
example : (toAsc sqTable id (square ℚ) depthExpr (.fn greatest) 1 (-9999) { eastMax := some (7 / 2), northMax := some 1 } 10000).map
      (fun a => (a.xll, a.yll, a.rows)) =
    some (0, 0, [[3 / 2, 1, 2, -9999], [2, 3 / 2, 1, -9999]]) := by decide +kernel

/-- An index out of range is an error, the index -1 is the last time. -/
example : (values depthExpr (.index 2) 2 4 3 (square ℚ).vars) = none ∧ (values depthExpr (.index (-1)) 2 4 3 (square ℚ).vars) = some [2, 0, 1, 3] := by
  decide +kernel

end Verif.Dem
