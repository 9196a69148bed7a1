import Verif.Urs.Spec
import Mathlib.Tactic.Linarith
import Mathlib.Tactic.FieldSimp
import Mathlib.Tactic.Ring

/-!
# The points which are chosen
-/

set_option linter.unusedSectionVars false

namespace Verif.Urs

variable {K : Type} [Field K] [LinearOrder K] [IsStrictOrderedRing K] [FloorRing K]

theorem roundEven_le (x : K) : x - 1 / 2 ≤ roundEven x ∧ (roundEven x : K) ≤ x + 1 / 2 := by
  have h1 := Int.floor_le x
  have h2 := Int.lt_floor_add_one x
  unfold roundEven
  by_cases h3 : x - ⌊x⌋ < 1 / 2
  · rw [if_pos h3]; constructor <;> linarith
  · rw [if_neg h3]
    by_cases h4 : 1 / 2 < x - ⌊x⌋
    · rw [if_pos h4]; push_cast; constructor <;> linarith
    · rw [if_neg h4]
      have h5 : x - ⌊x⌋ = 1 / 2 := le_antisymm (not_lt.mp h4) (not_lt.mp h3)
      by_cases h6 : ⌊x⌋ % 2 = 0
      · rw [if_pos h6]; constructor <;> linarith
      · rw [if_neg h6]; push_cast; constructor <;> linarith

theorem mem_upTo (a b i : ℤ) : i ∈ upTo a b ↔ a ≤ i ∧ i ≤ b := by
  unfold upTo
  simp only [List.mem_map, List.mem_range]
  constructor
  · rintro ⟨k, hk, rfl⟩; omega
  · rintro ⟨h1, h2⟩; exact ⟨(i - a).toNat, by omega, by omega⟩

/-- Lines around any coordinate between those of the ends are looked at. -/
theorem rows_around (g : Grid K) (hg : 0 < g.spacing) (origin u v x : K) (hx : Between u v x) (i : ℤ) (hi : Bounds origin g.spacing x i) :
    i ∈ rowsOf g origin u v := by
  have h1 : min u v ≤ x := by rcases hx with h | h; exacts [(min_le_left _ _).trans h.1, (min_le_right _ _).trans h.1]
  have h2 : x ≤ max u v := by rcases hx with h | h; exacts [h.2.trans (le_max_right _ _), h.2.trans (le_max_left _ _)]
  have b1 : (x - origin) / g.spacing < i + 1 := by
    rw [div_lt_iff₀ hg]
    rcases hi with h | h
    · linarith [h.2]
    · have := h.2; nlinarith
  have b2 : (i : K) - 1 ≤ (x - origin) / g.spacing := by
    rw [le_div_iff₀ hg]
    rcases hi with h | h
    · have := h.1; nlinarith
    · linarith [h.1]
  unfold rowsOf
  simp only
  rw [mem_upTo]
  have e1 : (min u v - 1415 / 1000 * g.spacing - origin) / g.spacing = (min u v - origin) / g.spacing - 1415 / 1000 := by
    field_simp
    ring
  have e2 : (max u v + 1415 / 1000 * g.spacing - origin) / g.spacing = (max u v - origin) / g.spacing + 1415 / 1000 := by
    field_simp
    ring
  have m1 : (min u v - origin) / g.spacing ≤ (x - origin) / g.spacing := div_le_div_of_nonneg_right (by linarith) hg.le
  have m2 : (x - origin) / g.spacing ≤ (max u v - origin) / g.spacing := div_le_div_of_nonneg_right (by linarith) hg.le
  rw [e1, e2]
  constructor
  · by_contra hc
    have hc' : i + 1 ≤ roundEven ((min u v - origin) / g.spacing - 1415 / 1000 + 1 / 2) := by omega
    have hc'' : (i : K) + 1 ≤ (roundEven ((min u v - origin) / g.spacing - 1415 / 1000 + 1 / 2) : K) := by exact_mod_cast hc'
    have := (roundEven_le ((min u v - origin) / g.spacing - 1415 / 1000 + 1 / 2)).2
    linarith
  · by_contra hc
    have hc' : roundEven ((max u v - origin) / g.spacing + 1415 / 1000) + 1 ≤ i := by omega
    have hc'' : (roundEven ((max u v - origin) / g.spacing + 1415 / 1000) : K) + 1 ≤ (i : K) := by exact_mod_cast hc'
    have := (roundEven_le ((max u v - origin) / g.spacing + 1415 / 1000)).1
    linarith

/-- Lines far away are not looked at. -/
theorem rows_only (g : Grid K) (hg : 0 < g.spacing) (origin u v : K) (i : ℤ) (hi : i ∈ rowsOf g origin u v) :
    min u v - 2 * g.spacing < origin + i * g.spacing ∧ origin + i * g.spacing < max u v + 2 * g.spacing := by
  unfold rowsOf at hi
  simp only at hi
  rw [mem_upTo] at hi
  have e1 : (min u v - 1415 / 1000 * g.spacing - origin) / g.spacing = (min u v - origin) / g.spacing - 1415 / 1000 := by
    field_simp
    ring
  have e2 : (max u v + 1415 / 1000 * g.spacing - origin) / g.spacing = (max u v - origin) / g.spacing + 1415 / 1000 := by
    field_simp
    ring
  rw [e1, e2] at hi
  have c1 : (roundEven ((min u v - origin) / g.spacing - 1415 / 1000 + 1 / 2) : K) ≤ i := by exact_mod_cast hi.1
  have c2 : (i : K) ≤ roundEven ((max u v - origin) / g.spacing + 1415 / 1000) := by exact_mod_cast hi.2
  have r1 := (roundEven_le ((min u v - origin) / g.spacing - 1415 / 1000 + 1 / 2)).1
  have r2 := (roundEven_le ((max u v - origin) / g.spacing + 1415 / 1000)).2
  have f1 : (min u v - origin) / g.spacing < i + 2 := by linarith
  have f2 : (i : K) - 2 < (max u v - origin) / g.spacing := by linarith
  rw [div_lt_iff₀ hg] at f1
  rw [lt_div_iff₀ hg] at f2
  constructor <;> linarith

theorem keep_near (m : Maps K) (lat long : K) (a b : K × K) (far : K) (hf : 0 ≤ far) (h : Near (m.utm lat long) a b far) (hab : Apart a b) :
    keep m lat long a b far = true := by
  unfold keep
  simp only
  by_cases h0 : (b.1 - a.1) * (b.1 - a.1) + (b.2 - a.2) * (b.2 - a.2) = 0
  · rw [if_pos h0]
  · rw [if_neg h0, decide_eq_true_eq]
    have hlen : 1 ≤ (b.1 - a.1) * (b.1 - a.1) + (b.2 - a.2) * (b.2 - a.2) := by
      rcases hab with rfl | h1
      · exact absurd (by ring) h0
      · linarith [h1, sq (b.1 - a.1), sq (b.2 - a.2)]
    unfold Near at h
    generalize (b.1 - a.1) * (a.2 - (m.utm lat long).2) - (a.1 - (m.utm lat long).1) * (b.2 - a.2) = c at h ⊢
    have e : (b.1 - a.1) ^ 2 + (b.2 - a.2) ^ 2 = (b.1 - a.1) * (b.1 - a.1) + (b.2 - a.2) * (b.2 - a.2) := by ring
    rw [e] at h
    generalize (b.1 - a.1) * (b.1 - a.1) + (b.2 - a.2) * (b.2 - a.2) = n at h hlen h0 ⊢
    rw [div_le_iff₀ (by linarith)]
    apply abs_le_of_sq_le_sq _ (mul_nonneg hf (by linarith))
    have : far ^ 2 * n ≤ far ^ 2 * (n * n) := mul_le_mul_of_nonneg_left (by nlinarith) (sq_nonneg _)
    calc c ^ 2 ≤ far ^ 2 * n := h
      _ ≤ far ^ 2 * (n * n) := this
      _ = (far * n) ^ 2 := by ring

theorem mem_needed (m : Maps K) (g : Grid K) (a b p : K × K) : p ∈ pointsNeeded m g a b ↔
    ∃ i ∈ rowsOf g g.lat (m.geo a).1 (m.geo b).1, ∃ j ∈ rowsOf g g.long (m.geo a).2 (m.geo b).2,
      p = (g.lat + i * g.spacing, g.long + j * g.spacing) ∧
      keep m (g.lat + i * g.spacing) (g.long + j * g.spacing) a b (1571474112 / 10000 * g.spacing) = true := by
  unfold pointsNeeded
  simp only [List.mem_flatMap, List.mem_filterMap]
  constructor
  · rintro ⟨i, hi, j, hj, h⟩
    by_cases hk : keep m (g.lat + i * g.spacing) (g.long + j * g.spacing) a b (1571474112 / 10000 * g.spacing) = true
    · rw [if_pos hk] at h
      exact ⟨i, hi, j, hj, (Option.some.inj h).symm, hk⟩
    · rw [if_neg hk] at h; cases h
  · rintro ⟨i, hi, j, hj, rfl, hk⟩
    exact ⟨i, hi, j, hj, by rw [if_pos hk]⟩

theorem mem_zip_tail (l : List (K × K)) (a b : K × K) : (a, b) ∈ l.zip l.tail ↔ ∃ i : ℕ, l[i]? = some a ∧ l[i + 1]? = some b := by
  rw [List.mem_iff_getElem?]
  constructor
  · rintro ⟨i, hi⟩
    rw [List.getElem?_zip_eq_some] at hi
    exact ⟨i, hi.1, by simpa using hi.2⟩
  · rintro ⟨i, h1, h2⟩
    exact ⟨i, List.getElem?_zip_eq_some.mpr ⟨h1, by simpa using h2⟩⟩

theorem mem_sides (poly : List (K × K)) (a b : K × K) : (a, b) ∈ sides poly ↔ Side poly a b := by
  cases poly with
  | nil => simp [sides, Side]
  | cons x l =>
    have z := mem_zip_tail (x :: l) a b
    simp only [List.tail_cons] at z
    rw [sides, List.mem_cons, z]
    have last : (x :: l)[l.length]? = some ((x :: l).getLastD x) := by
      rw [List.getLastD_eq_getLast?, List.getLast?_eq_getElem?]
      simp
    constructor
    · rintro (h | ⟨i, h1, h2⟩)
      · obtain ⟨rfl, rfl⟩ := Prod.mk.inj h
        refine ⟨l.length, by simp, last, ?_⟩
        simp
      · have hi : i + 1 < (x :: l).length := (List.getElem?_eq_some_iff.mp h2).1
        exact ⟨i, by omega, h1, by rw [Nat.mod_eq_of_lt hi]; exact h2⟩
    · rintro ⟨i, hi, h1, h2⟩
      by_cases hl : i + 1 < (x :: l).length
      · rw [Nat.mod_eq_of_lt hl] at h2
        exact .inr ⟨i, h1, h2⟩
      · left
        have : i = l.length := by simp at hi hl; omega
        subst this
        rw [last] at h1
        simp at h2
        cases h1
        rw [h2]

theorem mem_boundary (m : Maps K) (g : Grid K) (poly l : List (K × K)) (h : boundaryPoints m g poly = some l) (p : K × K) :
    p ∈ l ↔ ∃ a b, Side poly a b ∧ p ∈ pointsNeeded m g a b := by
  unfold boundaryPoints at h
  by_cases hg : g.spacing = 0
  · rw [if_pos hg] at h; cases h
  · rw [if_neg hg] at h
    simp only at h
    by_cases he : ((sides poly).flatMap fun s => pointsNeeded m g s.1 s.2).dedup = []
    · rw [if_pos he] at h; cases h
    · rw [if_neg he] at h
      cases h
      rw [List.mem_dedup, List.mem_flatMap]
      constructor
      · rintro ⟨⟨a, b⟩, hs, hp⟩; exact ⟨a, b, (mem_sides poly a b).mp hs, hp⟩
      · rintro ⟨a, b, hs, hp⟩; exact ⟨(a, b), (mem_sides poly a b).mpr hs, hp⟩

/-- C121. All points of the grid around any place in the box of a side are taken, if they are not far from the side and the side is not shorter
than a metre. -/
theorem C121_around (m : Maps K) (g : Grid K) (hg : 0 < g.spacing) (poly : List (K × K)) (a b : K × K) (hs : Side poly a b) (hab : Apart a b)
    (x y : K) (hx : Between (m.geo a).1 (m.geo b).1 x) (hy : Between (m.geo a).2 (m.geo b).2 y) (i j : ℤ) (hi : Bounds g.lat g.spacing x i)
    (hj : Bounds g.long g.spacing y j)
    (hn : Near (m.utm (g.lat + i * g.spacing) (g.long + j * g.spacing)) a b (1571474112 / 10000 * g.spacing)) :
    ∃ l, boundaryPoints m g poly = some l ∧ (g.lat + i * g.spacing, g.long + j * g.spacing) ∈ l := by
  have hp : (g.lat + i * g.spacing, g.long + j * g.spacing) ∈ pointsNeeded m g a b :=
    (mem_needed m g a b _).mpr ⟨i, rows_around g hg _ _ _ x hx i hi, j, rows_around g hg _ _ _ y hy j hj, rfl,
      keep_near m _ _ a b _ (by linarith) hn hab⟩
  have hm : (g.lat + i * g.spacing, g.long + j * g.spacing) ∈ ((sides poly).flatMap fun s => pointsNeeded m g s.1 s.2).dedup := by
    rw [List.mem_dedup, List.mem_flatMap]
    exact ⟨(a, b), (mem_sides poly a b).mpr hs, hp⟩
  refine ⟨_, ?_, hm⟩
  unfold boundaryPoints
  rw [if_neg hg.ne']
  simp only
  rw [if_neg]
  intro e
  rw [e] at hm
  simp at hm

/-- C121. Nothing else is taken than points of the grid less than two spacings from the box of a side, each of them once. -/
theorem C121_only (m : Maps K) (g : Grid K) (hg : 0 < g.spacing) (poly l : List (K × K)) (h : boundaryPoints m g poly = some l) :
    l ≠ [] ∧ l.Nodup ∧ ∀ p ∈ l, ∃ (i j : ℤ) (a b : K × K), p = (g.lat + i * g.spacing, g.long + j * g.spacing) ∧ Side poly a b ∧
      (min (m.geo a).1 (m.geo b).1 - 2 * g.spacing < p.1 ∧ p.1 < max (m.geo a).1 (m.geo b).1 + 2 * g.spacing) ∧
      (min (m.geo a).2 (m.geo b).2 - 2 * g.spacing < p.2 ∧ p.2 < max (m.geo a).2 (m.geo b).2 + 2 * g.spacing) := by
  have hm := mem_boundary m g poly l h
  refine ⟨?_, ?_, ?_⟩
  · rintro rfl
    unfold boundaryPoints at h
    rw [if_neg hg.ne'] at h
    simp only at h
    by_cases he : ((sides poly).flatMap fun s => pointsNeeded m g s.1 s.2).dedup = []
    · rw [if_pos he] at h; cases h
    · rw [if_neg he] at h; exact he (Option.some.inj h)
  · unfold boundaryPoints at h
    rw [if_neg hg.ne'] at h
    simp only at h
    by_cases he : ((sides poly).flatMap fun s => pointsNeeded m g s.1 s.2).dedup = []
    · rw [if_pos he] at h; cases h
    · rw [if_neg he] at h; cases h; exact List.nodup_dedup _
  · intro p hp
    obtain ⟨a, b, hs, hq⟩ := (hm p).mp hp
    obtain ⟨i, hi, j, hj, rfl, -⟩ := (mem_needed m g a b p).mp hq
    exact ⟨i, j, a, b, rfl, hs, rows_only g hg _ _ _ i hi, rows_only g hg _ _ _ j hj⟩

end Verif.Urs
