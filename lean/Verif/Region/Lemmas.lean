import Verif.Region.Spec
import Verif.Polygon.Props
import Mathlib.Algebra.BigOperators.Fin
import Mathlib.Data.Finset.Max
import Mathlib.Tactic.Ring
import Mathlib.Tactic.LinearCombination
import Mathlib.Tactic.Linarith
import Mathlib.Tactic.FieldSimp

/-!
# Three affine functions with constant sum on a line
-/

set_option linter.unusedSectionVars false

namespace Verif.Region

open Verif.Polygon

variable {K : Type*} [Field K] [LinearOrder K] [IsStrictOrderedRing K]

/-- The root of `c + d s` is a boundary point of the common nonnegative part. -/
def Root (c d : Fin 3 → K) (i : Fin 3) (s : K) : Prop := d i ≠ 0 ∧ s = -c i / d i ∧ ∀ j, j ≠ i → 0 ≤ c j + d j * s

theorem root_val (c d : K) (h : d ≠ 0) : c + d * (-c / d) = 0 := by
  rw [mul_div_cancel₀ _ h]; ring

/-- Where the common nonnegative part ends to the right. -/
theorem exists_right (c d : Fin 3 → K) (hs : ∑ i, d i = 0) (hne : ∃ i, d i ≠ 0) (s : K) (h : ∀ i, 0 ≤ c i + d i * s) :
    ∃ i r, Root c d i r ∧ s ≤ r := by
  obtain ⟨j, hj⟩ : ∃ j, d j < 0 := by
    by_contra hc
    push Not at hc
    obtain ⟨i, hi⟩ := hne
    have := (Finset.sum_eq_zero_iff_of_nonneg fun i _ => hc i).1 hs i (Finset.mem_univ _)
    exact hi this
  obtain ⟨i, hi, hmin⟩ := Finset.exists_min_image (Finset.univ.filter fun i => d i < 0) (fun i => -c i / d i) ⟨j, by simpa using hj⟩
  have hi' : d i < 0 := by simpa using hi
  have hsr : ∀ k, d k < 0 → s ≤ -c k / d k := by
    intro k hk
    rw [le_div_iff_of_neg hk]
    have := h k
    linarith
  refine ⟨i, _, ⟨hi'.ne, rfl, ?_⟩, hsr i hi'⟩
  intro k _
  rcases lt_or_ge (d k) 0 with hk | hk
  · have h1 := hmin k (by simpa using hk)
    have h2 := mul_le_mul_of_nonpos_left h1 hk.le
    have h3 := root_val (c k) (d k) hk.ne
    linarith
  · have h1 := hsr i hi'
    have h2 := mul_le_mul_of_nonneg_left h1 hk
    have h3 := h k
    linarith

theorem exists_left (c d : Fin 3 → K) (hs : ∑ i, d i = 0) (hne : ∃ i, d i ≠ 0) (s : K) (h : ∀ i, 0 ≤ c i + d i * s) :
    ∃ i r, Root c d i r ∧ r ≤ s := by
  obtain ⟨i, r, hr, hle⟩ := exists_right c (fun i => -d i) (by simpa using hs) (by simpa using hne) (-s) (by simpa using h)
  obtain ⟨h1, h2, h3⟩ := hr
  refine ⟨i, -r, ⟨by simpa using h1, ?_, ?_⟩, by linarith⟩
  · rw [h2]; simp [div_neg]
  · intro j hj
    have := h3 j hj
    simpa using this

/-- The interval test: the nonnegative part meets `[0, 1]` exactly if one of its ends is in `[0, 1]` or they lie on both sides. -/
theorem interval_test (c d : Fin 3 → K) (hs : ∑ i, d i = 0) (hne : ∃ i, d i ≠ 0) :
    (∃ s, 0 ≤ s ∧ s ≤ 1 ∧ ∀ i, 0 ≤ c i + d i * s) ↔
      (∃ i s, Root c d i s ∧ 0 ≤ s ∧ s ≤ 1) ∨ ((∃ i s, Root c d i s ∧ 1 < s) ∧ ∃ i s, Root c d i s ∧ s < 0) := by
  have full : ∀ i s, Root c d i s → ∀ j, 0 ≤ c j + d j * s := by
    rintro i s ⟨h1, h2, h3⟩ j
    by_cases hj : j = i
    · subst hj; rw [h2, root_val _ _ h1]
    · exact h3 j hj
  constructor
  · rintro ⟨s, h0, h1, h⟩
    obtain ⟨i, r, hr, hle⟩ := exists_right c d hs hne s h
    obtain ⟨j, l, hl, hge⟩ := exists_left c d hs hne s h
    rcases le_or_gt r 1 with h2 | h2
    · exact Or.inl ⟨i, r, hr, h0.trans hle, h2⟩
    · rcases le_or_gt 0 l with h3 | h3
      · exact Or.inl ⟨j, l, hl, h3, hge.trans h1⟩
      · exact Or.inr ⟨⟨i, r, hr, h2⟩, ⟨j, l, hl, h3⟩⟩
  · rintro (⟨i, s, hr, h0, h1⟩ | ⟨⟨i, r, hr, h1⟩, ⟨j, l, hl, h0⟩⟩)
    · exact ⟨s, h0, h1, full i s hr⟩
    · refine ⟨0, le_rfl, zero_le_one, fun k => ?_⟩
      have a1 := full i r hr k
      have a2 := full j l hl k
      rw [mul_zero, add_zero]
      rcases le_or_gt 0 (d k) with hk | hk
      · have : d k * l ≤ 0 := mul_nonpos_of_nonneg_of_nonpos hk h0.le
        linarith
      · have : d k * r ≤ 0 := mul_nonpos_of_nonpos_of_nonneg hk.le (by linarith)
        linarith

/-! ### The loop -/

/-- The three cases of one side. -/
def Hit (p0 p1 : Pt K) (e : Pt K × Pt K) : Prop :=
  uDotTp p0 p1 e.1 e.2 ≠ 0 ∧ (0 ≤ paramA p0 p1 e.1 e.2 ∧ paramA p0 p1 e.1 e.2 ≤ 1) ∧
    0 ≤ paramB p0 p1 e.1 e.2 ∧ paramB p0 p1 e.1 e.2 ≤ 1
def After (p0 p1 : Pt K) (e : Pt K × Pt K) : Prop :=
  uDotTp p0 p1 e.1 e.2 ≠ 0 ∧ 1 < paramA p0 p1 e.1 e.2 ∧ 0 ≤ paramB p0 p1 e.1 e.2 ∧ paramB p0 p1 e.1 e.2 ≤ 1
def Before (p0 p1 : Pt K) (e : Pt K × Pt K) : Prop :=
  uDotTp p0 p1 e.1 e.2 ≠ 0 ∧ paramA p0 p1 e.1 e.2 < 0 ∧ 0 ≤ paramB p0 p1 e.1 e.2 ∧ paramB p0 p1 e.1 e.2 ≤ 1

theorem lineLoop_iff (p0 p1 : Pt K) (es : List (Pt K × Pt K)) : ∀ A B,
    lineLoop p0 p1 es A B = true ↔ (∃ e ∈ es, Hit p0 p1 e) ∨
      ((1 ≤ A ∨ ∃ e ∈ es, After p0 p1 e) ∧ (1 ≤ B ∨ ∃ e ∈ es, Before p0 p1 e)) := by
  induction es with
  | nil => intro A B; simp [lineLoop]
  | cons e es ih =>
    intro A B
    obtain ⟨t0, t1⟩ := e
    unfold lineLoop
    by_cases hu : uDotTp p0 p1 t0 t1 ≠ 0
    · rw [if_pos hu]
      simp only
      by_cases hhit : paramA p0 p1 t0 t1 ≥ 0 ∧ paramA p0 p1 t0 t1 ≤ 1 ∧ paramB p0 p1 t0 t1 ≥ 0 ∧ paramB p0 p1 t0 t1 ≤ 1
      · rw [if_pos hhit]
        refine iff_of_true rfl (Or.inl ⟨(t0, t1), by simp, hu, ⟨hhit.1, hhit.2.1⟩, hhit.2.2⟩)
      · rw [if_neg hhit, ih]
        have hH : ¬ Hit p0 p1 (t0, t1) := fun h => hhit ⟨h.2.1.1, h.2.1.2, h.2.2⟩
        have hA : (paramA p0 p1 t0 t1 > 1 ∧ paramB p0 p1 t0 t1 ≥ 0 ∧ paramB p0 p1 t0 t1 ≤ 1) ↔ After p0 p1 (t0, t1) :=
          ⟨fun h => ⟨hu, h⟩, fun h => h.2⟩
        have hB : (paramA p0 p1 t0 t1 < 0 ∧ paramB p0 p1 t0 t1 ≥ 0 ∧ paramB p0 p1 t0 t1 ≤ 1) ↔ Before p0 p1 (t0, t1) :=
          ⟨fun h => ⟨hu, h⟩, fun h => h.2⟩
        have e1 : (1 ≤ (if paramA p0 p1 t0 t1 > 1 ∧ paramB p0 p1 t0 t1 ≥ 0 ∧ paramB p0 p1 t0 t1 ≤ 1 then A + 1 else A)) ↔
            (1 ≤ A ∨ After p0 p1 (t0, t1)) := by
          rw [← hA]; split_ifs with h <;> simp [h]
        have e2 : (1 ≤ (if paramA p0 p1 t0 t1 < 0 ∧ paramB p0 p1 t0 t1 ≥ 0 ∧ paramB p0 p1 t0 t1 ≤ 1 then B + 1 else B)) ↔
            (1 ≤ B ∨ Before p0 p1 (t0, t1)) := by
          rw [← hB]; split_ifs with h <;> simp [h]
        rw [e1, e2]
        simp only [List.exists_mem_cons_iff, hH, false_or, or_assoc]
    · rw [if_neg hu, ih]
      have hH : ¬ Hit p0 p1 (t0, t1) := fun h => hu h.1
      have hA : ¬ After p0 p1 (t0, t1) := fun h => hu h.1
      have hB : ¬ Before p0 p1 (t0, t1) := fun h => hu h.1
      simp only [List.exists_mem_cons_iff, hH, hA, hB, false_or]

end Verif.Region
