import Verif.Cross.Spec
import Mathlib.Tactic.LinearCombination
import Mathlib.Tactic.FieldSimp

/-! # The part of a line inside a triangle -/

set_option linter.unusedSectionVars false

namespace Verif.Cross

open Verif.Polygon

variable {K : Type*} [Field K] [LinearOrder K] [IsStrictOrderedRing K]

theorem ori_along (U V A B : Pt K) (t : K) : ori U V (along A B t) = ori U V A + t * (ori U V B - ori U V A) := by
  unfold ori along
  ring

theorem along_zero (A B : Pt K) : along A B 0 = A := by simp [along]

theorem along_one (A B : Pt K) : along A B 1 = B := by simp [along]

theorem onSeg_along {A B p : Pt K} : OnSeg p A B ↔ ∃ t, 0 ≤ t ∧ t ≤ 1 ∧ p = along A B t := by
  constructor
  · rintro ⟨t, h0, h1, hx, hy⟩
    refine ⟨t, h0, h1, ?_⟩
    cases p
    simp only at hx hy
    rw [hx, hy]
    rfl
  · rintro ⟨t, h0, h1, rfl⟩
    exact ⟨t, h0, h1, rfl, rfl⟩

theorem along_inj {A B : Pt K} (h : A ≠ B) {s t : K} (e : along A B s = along A B t) : s = t := by
  by_contra hne
  apply h
  have hst : s - t ≠ 0 := sub_ne_zero.mpr hne
  simp only [along, Pt.mk.injEq] at e
  have h1 : (s - t) * (B.x - A.x) = 0 := by linear_combination e.1
  have h2 : (s - t) * (B.y - A.y) = 0 := by linear_combination e.2
  have h3 := (mul_eq_zero.mp h1).resolve_left hst
  have h4 := (mul_eq_zero.mp h2).resolve_left hst
  cases A; cases B
  simp only at h3 h4
  rw [Pt.mk.injEq]
  exact ⟨by linarith, by linarith⟩

/-- Parameters of points between two points of the line. -/
theorem btw_along {A B : Pt K} (h : A ≠ B) {r s t : K} (e : OnSeg (along A B r) (along A B s) (along A B t)) : (s ≤ r ∧ r ≤ t) ∨ (t ≤ r ∧ r ≤ s) := by
  obtain ⟨k, k0, k1, hx, hy⟩ := e
  have : along A B r = along A B (s + k * (t - s)) := by
    unfold along at *
    rw [Pt.mk.injEq]
    exact ⟨by simp only at hx; linear_combination hx, by simp only at hy; linear_combination hy⟩
  have hr := along_inj h this
  rcases le_total s t with hst | hst
  · left
    constructor <;> nlinarith
  · right
    constructor <;> nlinarith

theorem sides_sum (T : Tri K) (p : Pt K) : ori T.a T.b p + ori T.b T.c p + ori T.c T.a p = ori T.a T.b T.c := by
  unfold ori
  ring

theorem ccw_ori {T : Tri K} : T.Ccw ↔ 0 < ori T.a T.b T.c := Iff.rfl

theorem has_iff {T : Tri K} (h : T.Ccw) (p : Pt K) : T.Has p ↔ ∀ e ∈ T.sides, 0 ≤ ori e.1 e.2 p := by
  rw [ccw_ori] at h
  simp only [Tri.sides, List.mem_cons, List.not_mem_nil, or_false, forall_eq_or_imp, forall_eq]
  constructor
  · rintro ⟨u, v, w, hu, hv, hw, h1, hx, hy⟩
    have e1 : ori T.a T.b p = w * ori T.a T.b T.c := by
      unfold ori; rw [hx, hy]; linear_combination ((T.b.x - T.a.x) * T.a.y - (T.b.y - T.a.y) * T.a.x) * h1
    have e2 : ori T.b T.c p = u * ori T.a T.b T.c := by
      unfold ori; rw [hx, hy]; linear_combination ((T.c.x - T.b.x) * T.b.y - (T.c.y - T.b.y) * T.b.x) * h1
    have e3 : ori T.c T.a p = v * ori T.a T.b T.c := by
      unfold ori; rw [hx, hy]; linear_combination ((T.a.x - T.c.x) * T.c.y - (T.a.y - T.c.y) * T.c.x) * h1
    rw [e1, e2, e3]
    exact ⟨mul_nonneg hw h.le, mul_nonneg hu h.le, mul_nonneg hv h.le⟩
  · rintro ⟨h1, h2, h3⟩
    refine ⟨ori T.b T.c p / ori T.a T.b T.c, ori T.c T.a p / ori T.a T.b T.c, ori T.a T.b p / ori T.a T.b T.c, div_nonneg h2 h.le, div_nonneg h3 h.le,
      div_nonneg h1 h.le, ?_, ?_, ?_⟩
    · rw [← add_div, ← add_div, div_eq_one_iff_eq h.ne', ← sides_sum T p]
      ring
    · have := h.ne'
      rw [div_mul_eq_mul_div, div_mul_eq_mul_div, div_mul_eq_mul_div, ← add_div, ← add_div, eq_div_iff this]
      unfold ori
      ring
    · have := h.ne'
      rw [div_mul_eq_mul_div, div_mul_eq_mul_div, div_mul_eq_mul_div, ← add_div, ← add_div, eq_div_iff this]
      unfold ori
      ring

theorem inner_iff {T : Tri K} (h : T.Ccw) (p : Pt K) : T.Inner p ↔ ∀ e ∈ T.sides, 0 < ori e.1 e.2 p := by
  rw [ccw_ori] at h
  simp only [Tri.sides, List.mem_cons, List.not_mem_nil, or_false, forall_eq_or_imp, forall_eq]
  constructor
  · rintro ⟨-, u, v, w, hu, hv, hw, h1, hx, hy⟩
    have e1 : ori T.a T.b p = w * ori T.a T.b T.c := by
      unfold ori; rw [hx, hy]; linear_combination ((T.b.x - T.a.x) * T.a.y - (T.b.y - T.a.y) * T.a.x) * h1
    have e2 : ori T.b T.c p = u * ori T.a T.b T.c := by
      unfold ori; rw [hx, hy]; linear_combination ((T.c.x - T.b.x) * T.b.y - (T.c.y - T.b.y) * T.b.x) * h1
    have e3 : ori T.c T.a p = v * ori T.a T.b T.c := by
      unfold ori; rw [hx, hy]; linear_combination ((T.a.x - T.c.x) * T.c.y - (T.a.y - T.c.y) * T.c.x) * h1
    rw [e1, e2, e3]
    exact ⟨mul_pos hw h, mul_pos hu h, mul_pos hv h⟩
  · rintro ⟨h1, h2, h3⟩
    refine ⟨?_, ori T.b T.c p / ori T.a T.b T.c, ori T.c T.a p / ori T.a T.b T.c, ori T.a T.b p / ori T.a T.b T.c, div_pos h2 h, div_pos h3 h,
      div_pos h1 h, ?_, ?_, ?_⟩
    · intro hf
      unfold Flat at hf
      unfold ori at h
      linarith
    · rw [← add_div, ← add_div, div_eq_one_iff_eq h.ne', ← sides_sum T p]
      ring
    · have := h.ne'
      rw [div_mul_eq_mul_div, div_mul_eq_mul_div, div_mul_eq_mul_div, ← add_div, ← add_div, eq_div_iff this]
      unfold ori
      ring
    · have := h.ne'
      rw [div_mul_eq_mul_div, div_mul_eq_mul_div, div_mul_eq_mul_div, ← add_div, ← add_div, eq_div_iff this]
      unfold ori
      ring

theorem onSide_iff {T : Tri K} (h : T.Ccw) {e : Pt K × Pt K} (he : e ∈ T.sides) (p : Pt K) : OnSeg p e.1 e.2 ↔ T.Has p ∧ ori e.1 e.2 p = 0 := by
  rw [has_iff h]
  rw [ccw_ori] at h
  -- third corner
  obtain ⟨W, hW, hs, hc⟩ : ∃ W : Pt K, ori e.1 e.2 W = ori T.a T.b T.c ∧
      (∀ q, ori e.1 e.2 q + ori e.2 W q + ori W e.1 q = ori T.a T.b T.c) ∧ ((∀ f ∈ T.sides, 0 ≤ ori f.1 f.2 p) ↔
      0 ≤ ori e.1 e.2 p ∧ 0 ≤ ori e.2 W p ∧ 0 ≤ ori W e.1 p) := by
    simp only [Tri.sides, List.mem_cons, List.not_mem_nil, or_false, forall_eq_or_imp, forall_eq] at he ⊢
    rcases he with rfl | rfl | rfl
    · exact ⟨T.c, rfl, fun q => sides_sum T q, Iff.rfl⟩
    · exact ⟨T.a, by unfold ori; ring, fun q => by unfold ori; ring, by tauto⟩
    · exact ⟨T.b, by unfold ori; ring, fun q => by unfold ori; ring, by tauto⟩
  rw [hc]
  constructor
  · rintro ⟨t, t0, t1, hx, hy⟩
    have e1 : ori e.1 e.2 p = 0 := by unfold ori; rw [hx, hy]; ring
    have e2 : ori e.2 W p = (1 - t) * ori e.1 e.2 W := by unfold ori; rw [hx, hy]; ring
    have e3 : ori W e.1 p = t * ori e.1 e.2 W := by unfold ori; rw [hx, hy]; ring
    rw [e1, e2, e3, hW]
    exact ⟨⟨le_rfl, mul_nonneg (by linarith) h.le, mul_nonneg t0 h.le⟩, rfl⟩
  · rintro ⟨⟨-, h2, h3⟩, h1⟩
    have hsum := hs p
    have hD := h.ne'
    refine ⟨ori W e.1 p / ori T.a T.b T.c, div_nonneg h3 h.le, (div_le_one h).mpr (by linarith), ?_, ?_⟩
    · rw [div_mul_eq_mul_div, ← sub_eq_iff_eq_add', eq_div_iff hD, ← hW]
      unfold ori at h1 ⊢
      linear_combination (W.x - e.1.x) * h1
    · rw [div_mul_eq_mul_div, ← sub_eq_iff_eq_add', eq_div_iff hD, ← hW]
      unfold ori at h1 ⊢
      linear_combination (W.y - e.1.y) * h1

/-- Intersection of an interval with a half line. -/
theorem half (a b α β : K) : (∀ t, a ≤ t → t ≤ b → ¬ 0 ≤ α + t * β) ∨ ∃ a' b', a ≤ a' ∧ a' ≤ b' ∧ b' ≤ b ∧
    (∀ t, a ≤ t → t ≤ b → (0 ≤ α + t * β ↔ a' ≤ t ∧ t ≤ b')) ∧ (a' = a ∨ (0 < β ∧ α + a' * β = 0)) ∧ (b' = b ∨ (β < 0 ∧ α + b' * β = 0)) := by
  by_cases hab : a ≤ b
  swap
  · exact Or.inl fun t h1 h2 => absurd (h1.trans h2) hab
  rcases lt_trichotomy β 0 with hβ | rfl | hβ
  · have key : ∀ t, 0 ≤ α + t * β ↔ t ≤ -α / β := fun t => by
      rw [le_div_iff_of_neg hβ]
      constructor <;> intro h <;> linarith
    by_cases h1 : a ≤ -α / β
    · right
      refine ⟨a, min b (-α / β), le_rfl, le_min hab h1, min_le_left _ _, ?_, Or.inl rfl, ?_⟩
      · intro t ha hb
        rw [key, le_min_iff]
        exact ⟨fun h => ⟨ha, hb, h⟩, fun h => h.2.2⟩
      · rcases le_total b (-α / β) with h2 | h2
        · exact Or.inl (min_eq_left h2)
        · right
          rw [min_eq_right h2]
          exact ⟨hβ, by rw [div_mul_cancel₀ _ hβ.ne]; ring⟩
    · left
      intro t ha _
      rw [key]
      exact fun h => h1 (ha.trans h)
  · by_cases hα : 0 ≤ α
    · right
      exact ⟨a, b, le_rfl, hab, le_rfl, fun t ha hb => by simp [hα, ha, hb], Or.inl rfl, Or.inl rfl⟩
    · left
      intro t _ _
      simpa using hα
  · have key : ∀ t, 0 ≤ α + t * β ↔ -α / β ≤ t := fun t => by
      rw [div_le_iff₀ hβ]
      constructor <;> intro h <;> linarith
    by_cases h1 : -α / β ≤ b
    · right
      refine ⟨max a (-α / β), b, le_max_left _ _, max_le hab h1, le_rfl, ?_, ?_, Or.inl rfl⟩
      · intro t ha hb
        rw [key, max_le_iff]
        exact ⟨fun h => ⟨⟨ha, h⟩, hb⟩, fun h => h.1.2⟩
      · rcases le_total (-α / β) a with h2 | h2
        · exact Or.inl (max_eq_left h2)
        · right
          rw [max_eq_right h2]
          exact ⟨hβ, by rw [div_mul_cancel₀ _ hβ.ne']; ring⟩
    · left
      intro t _ hb
      rw [key]
      exact fun h => h1 (h.trans hb)

/-- The part of the line inside finitely many half planes. -/
theorem part (A B : Pt K) : ∀ es : List (Pt K × Pt K), (∀ t, 0 ≤ t → t ≤ 1 → ¬ ∀ e ∈ es, 0 ≤ ori e.1 e.2 (along A B t)) ∨
    ∃ a b, 0 ≤ a ∧ a ≤ b ∧ b ≤ 1 ∧ (∀ t, 0 ≤ t → t ≤ 1 → ((∀ e ∈ es, 0 ≤ ori e.1 e.2 (along A B t)) ↔ a ≤ t ∧ t ≤ b)) ∧
      (a = 0 ∨ ∃ e ∈ es, ori e.1 e.2 A < ori e.1 e.2 B ∧ ori e.1 e.2 (along A B a) = 0) ∧
      (b = 1 ∨ ∃ e ∈ es, ori e.1 e.2 B < ori e.1 e.2 A ∧ ori e.1 e.2 (along A B b) = 0) := by
  intro es
  induction es with
  | nil => exact Or.inr ⟨0, 1, le_rfl, zero_le_one, le_rfl, fun t h0 h1 => by simp [h0, h1], Or.inl rfl, Or.inl rfl⟩
  | cons e es ih =>
    rcases ih with ih | ⟨a, b, a0, ab, b1, hS, ha, hb⟩
    · left
      intro t t0 t1 h
      exact ih t t0 t1 fun f hf => h f (List.mem_cons_of_mem _ hf)
    · rcases half a b (ori e.1 e.2 A) (ori e.1 e.2 B - ori e.1 e.2 A) with h | ⟨a', b', h1, h2, h3, h4, h5, h6⟩
      · left
        intro t t0 t1 hall
        have := (hS t t0 t1).mp fun f hf => hall f (List.mem_cons_of_mem _ hf)
        apply h t this.1 this.2
        rw [← ori_along]
        exact hall e (by simp)
      · right
        refine ⟨a', b', a0.trans h1, h2, h3.trans b1, ?_, ?_, ?_⟩
        · intro t t0 t1
          rw [List.forall_mem_cons, hS t t0 t1, ori_along]
          constructor
          · rintro ⟨g1, g2⟩
            exact (h4 t g2.1 g2.2).mp g1
          · rintro ⟨g1, g2⟩
            exact ⟨(h4 t (h1.trans g1) (g2.trans h3)).mpr ⟨g1, g2⟩, h1.trans g1, g2.trans h3⟩
        · rcases h5 with rfl | ⟨g1, g2⟩
          · rcases ha with ha | ⟨f, hf, hf'⟩
            · exact Or.inl ha
            · exact Or.inr ⟨f, List.mem_cons_of_mem _ hf, hf'⟩
          · exact Or.inr ⟨e, by simp, by linarith, by rw [ori_along]; exact g2⟩
        · rcases h6 with rfl | ⟨g1, g2⟩
          · rcases hb with hb | ⟨f, hf, hf'⟩
            · exact Or.inl hb
            · exact Or.inr ⟨f, List.mem_cons_of_mem _ hf, hf'⟩
          · exact Or.inr ⟨e, by simp, by linarith, by rw [ori_along]; exact g2⟩

end Verif.Cross
