import Verif.Compose.Props
import Verif.Compose.PropsNear
import Verif.Compose.PropsRaster
import Mathlib.Data.List.Sort
import Mathlib.Analysis.Real.Sqrt
import Mathlib.Data.Rat.Floor

/-! # Cases meeting the hypotheses of C92 and C93 -/

set_option linter.unusedSectionVars false

namespace Verif.Compose

open Verif.Polygon

/-- A tree that meets the contract: data points sorted by distance. -/
noncomputable def sortedQuery : Query ℝ := fun d k p =>
  (((List.range d.length).insertionSort fun i j => dist2 p (d.getD i ⟨p, 0⟩).at_ ≤ dist2 p (d.getD j ⟨p, 0⟩).at_).take k).map fun i =>
    (Real.sqrt (dist2 p (d.getD i ⟨p, 0⟩).at_), i)

/-- The contract of the tree can be met. -/
theorem sortedQuery_correct : Correct sortedQuery := by
  intro d k p hk
  set r : ℕ → ℕ → Prop := fun i j => dist2 p (d.getD i ⟨p, 0⟩).at_ ≤ dist2 p (d.getD j ⟨p, 0⟩).at_ with hr
  have : Std.Total r := ⟨fun i j => le_total _ _⟩
  have : IsTrans ℕ r := ⟨fun i j k h1 h2 => le_trans h1 h2⟩
  set L := (List.range d.length).insertionSort r with hL
  have hperm : L.Perm (List.range d.length) := List.perm_insertionSort _ _
  have hlen : L.length = d.length := by rw [hperm.length_eq, List.length_range]
  have hnd : L.Nodup := hperm.nodup_iff.2 List.nodup_range
  have hsort : L.Pairwise r := List.pairwise_insertionSort _ _
  have hq : sortedQuery d k p = (L.take k).map fun i => (Real.sqrt (dist2 p (d.getD i ⟨p, 0⟩).at_), i) := rfl
  have hsnd : (sortedQuery d k p).map Prod.snd = L.take k := by
    rw [hq, List.map_map]
    exact List.map_id _
  have h0 : ∀ i, 0 ≤ dist2 p (d.getD i ⟨p, 0⟩).at_ := fun i => add_nonneg (mul_self_nonneg _) (mul_self_nonneg _)
  refine ⟨?_, ?_, ?_, ?_, ?_⟩
  · rw [hq, List.length_map, List.length_take, hlen]; omega
  · rw [hsnd]; exact hnd.sublist (List.take_sublist _ _)
  · intro x hx
    rw [hq] at hx
    obtain ⟨i, hi, rfl⟩ := List.mem_map.1 hx
    have hid : i < d.length := List.mem_range.1 (hperm.mem_iff.1 (List.mem_of_mem_take hi))
    exact ⟨_, some_of_lt hid _, Real.sqrt_nonneg _, Real.mul_self_sqrt (h0 i)⟩
  · rw [hq, List.pairwise_map]
    exact (hsort.sublist (List.take_sublist _ _)).imp fun h => Real.sqrt_le_sqrt h
  · intro j e hj hn x hx
    rw [hsnd] at hn
    rw [hq] at hx
    obtain ⟨i, hi, rfl⟩ := List.mem_map.1 hx
    have hjL : j ∈ L := hperm.mem_iff.2 (List.mem_range.2 (lt_of_some hj))
    rw [← List.take_append_drop k L, List.mem_append] at hjL
    have hjd := hjL.resolve_left hn
    rw [← List.take_append_drop k L, List.pairwise_append] at hsort
    have := hsort.2.2 i hi j hjd
    simp only [hr] at this
    rw [getD_some hj] at this
    simp only
    rw [Real.mul_self_sqrt (h0 i)]
    exact this

/-- The hypotheses of `C93_one`, `C93_many`, `C93_background` can be met: two data points, two neighbours. -/
example : Correct sortedQuery ∧ (∀ e ∈ ([⟨⟨0, 0⟩, 1⟩, ⟨⟨3, 4⟩, 7⟩] : List (Datum ℝ)), -huge ≤ e.value ∧ e.value ≤ huge) ∧
    (∃ e ∈ ([⟨⟨0, 0⟩, 1⟩, ⟨⟨3, 4⟩, 7⟩] : List (Datum ℝ)), ∃ r, 0 ≤ r ∧ r * r = dist2 ⟨6, 8⟩ e.at_ ∧ r < 6) ∧
    (∀ e ∈ ([⟨⟨0, 0⟩, 1⟩, ⟨⟨3, 4⟩, 7⟩] : List (Datum ℝ)), ∀ r, 0 ≤ r → r * r = dist2 ⟨6, 8⟩ e.at_ → 5 ≤ r) := by
  refine ⟨sortedQuery_correct, ?_, ⟨⟨⟨3, 4⟩, 7⟩, by simp, 5, by norm_num, by norm_num [dist2], by norm_num⟩, ?_⟩
  · intro e he
    simp only [List.mem_cons, List.not_mem_nil, or_false] at he
    unfold huge
    rcases he with rfl | rfl <;> norm_num
  · intro e he r h0 hr
    simp only [List.mem_cons, List.not_mem_nil, or_false] at he
    rcases he with rfl | rfl <;> norm_num [dist2] at hr <;> nlinarith

/-- A setting in two regions: 5 in a square, limited to 4; elsewhere a function with no value east of `x = 10`, then 9 everywhere. -/
def sampleSetup (gaps : Gaps ℚ) : Setup ℚ :=
  ⟨[(.polygon [⟨100, 100⟩, ⟨104, 100⟩, ⟨104, 104⟩, ⟨100, 104⟩], .const 5), (.skip, .bad), (.polygon [⟨100, 100⟩, ⟨120, 100⟩, ⟨120, 120⟩, ⟨100, 120⟩],
    .call fun p => if p.x > 10 then none else some (p.x + p.y)), (.all, .const 9)], some [(0, 4), (0, 0), (0, 100), (0, 100)], .fallThrough, gaps, 1, 100, 100⟩

/-- A tree for the sample: the last data point. -/
def lastQuery : Query ℚ := fun d _ _ => [(1, d.length - 1)]

/-- The hypotheses of `C92_value`, `C92_gaps`, `C92_pointwise`, `C92_clipped` can be met. -/
example : setting (fun _ => 1) lastQuery (sampleSetup .no) [⟨1, 1⟩, ⟨7, 3⟩, ⟨15, 3⟩, ⟨30, 3⟩] = some [some 4, some 10, some 9, some 9] := by decide +kernel

example : setting (fun _ => 1) lastQuery (sampleSetup .all) [⟨1, 1⟩, ⟨15, 3⟩, ⟨30, 3⟩, ⟨7, 3⟩] = some [some 4, some 10, some 9, some 10] := by decide +kernel

/-- A raster of two by two pixels of size 2. -/
def sampleGrid (m : Option ℚ) : Grid ℚ := ⟨10, 20, 2, -2, 2, 2, fun r c => 1 + 3 * c + 5 * r, m⟩

/-- The hypotheses of `C93_pixel`, `C93_within`, `C93_missing`, `C93_zero` can be met. -/
example : InPixel (sampleGrid (some 4)) 0 1 ⟨25 / 2, 39 / 2⟩ ∧ (sampleGrid (some 4)).pixel 0 1 = 4 ∧ (sampleGrid (some 4)).value false ⟨25 / 2, 39 / 2⟩ = some none ∧
    (sampleGrid (some 0)).value false ⟨25 / 2, 39 / 2⟩ = some (some 4) ∧ (sampleGrid none).value true ⟨12, 18⟩ = some (some 5) ∧
    (sampleGrid none).value true ⟨14, 18⟩ = none := by
  refine ⟨?_, ?_, ?_, ?_, ?_, ?_⟩ <;> (first | decide +kernel | (unfold InPixel sampleGrid; norm_num))

/-- The hypothesis of `C93_outside` can be met. -/
example : ∀ row col, ¬ InPixel (sampleGrid none) row col ⟨0, 0⟩ := by
  rintro row col ⟨_, _, h, _⟩
  have : (0 : ℚ) ≤ col := Nat.cast_nonneg _
  simp only [sampleGrid] at h
  linarith

/-- The hypotheses of `C93_exact` and `C93_centre` can be met: a plane. -/
example : (∀ row col : ℕ, row < 2 → col < 2 → (sampleGrid none).pixel row col = (1 - 3 * 11 / 2 + 5 * 19 / 2) + 3 / 2 * (centre (sampleGrid none) row col).x +
      (-5 / 2) * (centre (sampleGrid none) row col).y + 0 * (centre (sampleGrid none) row col).x * (centre (sampleGrid none) row col).y) ∧
    (∀ row col : ℕ, row < 2 → col < 2 → ¬ Marks (sampleGrid none) ((sampleGrid none).pixel row col)) := by
  refine ⟨fun row col _ _ => ?_, fun row col _ _ => ?_⟩
  · simp only [sampleGrid, centre]; ring
  · rintro ⟨m, hm, _⟩
    simp [sampleGrid] at hm

end Verif.Compose
