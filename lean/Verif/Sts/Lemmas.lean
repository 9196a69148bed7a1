import Verif.Sts.Spec
import Verif.FileFn.PropsDomain
import Verif.Quad.PropsTree
import Mathlib.Data.List.Nodup

/-! # Lemmas for gauges along a boundary polygon -/

namespace Verif.Sts

set_option linter.unusedSectionVars false

open Verif.Polygon (Pt OnSeg IsSqrt)
open Verif.FileFn (File Var relTo)
open Verif.Quad (onLine onLine_of_onSeg near_of_onLine)

variable {K : Type*} [Field K] [LinearOrder K] [IsStrictOrderedRing K]

variable {f : File K} {x poly : List (Pt K)}

/-! ## Selection -/

theorem close_iff {g b : Pt K} {j : ℕ} (hg : x[j]? = some g) : close g (relTo f.corner b) = true ↔ At f x b j := by
  unfold close At relTo
  simp only [Bool.and_eq_true, decide_eq_true_eq, hg, Option.some.injEq, exists_eq_left']
  rw [show ∀ y : K, (1 + y) / 10 ^ 4 = 1 / 10 ^ 4 + 1 / 10 ^ 4 * y from fun y => by ring]
  rw [show ∀ y : K, (1 + y) / 10 ^ 4 = 1 / 10 ^ 4 + 1 / 10 ^ 4 * y from fun y => by ring]

theorem gaugeAt_iff {b : Pt K} {j : ℕ} : gaugeAt x (relTo f.corner b) = some j ↔ At f x b j ∧ ∀ k < j, ¬ At f x b k := by
  unfold gaugeAt
  rw [List.findIdx?_eq_some_iff_getElem]
  constructor
  · rintro ⟨h, h1, h2⟩
    refine ⟨(close_iff (List.getElem?_eq_getElem h)).1 h1, fun k hk hat => ?_⟩
    exact h2 k hk ((close_iff (List.getElem?_eq_getElem (by omega))).2 hat)
  · rintro ⟨h1, h2⟩
    obtain ⟨g, hg, -⟩ := id h1
    obtain ⟨h, rfl⟩ := List.getElem?_eq_some_iff.1 hg
    refine ⟨h, (close_iff hg).2 h1, fun k hk hc => h2 k hk ((close_iff (List.getElem?_eq_getElem (by omega))).1 hc)⟩

theorem gives_lt {i j : ℕ} (h : Gives f x poly i j) : i < poly.length ∧ j < x.length := by
  obtain ⟨b, h1, ⟨g, h2, -⟩, -⟩ := h
  exact ⟨(List.getElem?_eq_some_iff.1 h1).1, (List.getElem?_eq_some_iff.1 h2).1⟩

theorem gives_unique {i j k : ℕ} (h : Gives f x poly i j) (h' : Gives f x poly i k) : j = k := by
  obtain ⟨b, h1, h2, h3⟩ := h
  obtain ⟨b', h1', h2', h3'⟩ := h'
  rw [h1] at h1'
  cases h1'
  rcases Nat.lt_trichotomy j k with h | h | h
  · exact absurd h2 (h3' j h)
  · exact h
  · exact absurd h2' (h3 k h)

/-- The selected gauges. -/
theorem select_mem (s : Sel K) : s ∈ select x (poly.map (relTo f.corner)) ↔
    Gives f x poly s.boundary s.gauge ∧ ∃ b, poly[s.boundary]? = some b ∧ s.pos = relTo f.corner b := by
  unfold select
  rw [List.mem_filterMap]
  simp only [List.mem_range, List.length_map]
  constructor
  · rintro ⟨i, hi, h⟩
    obtain ⟨j, hj, rfl⟩ := Option.map_eq_some_iff.1 h
    have e : (poly.map (relTo f.corner)).getD i ⟨0, 0⟩ = relTo f.corner poly[i] := by
      rw [List.getD_eq_getElem?_getD, List.getElem?_map, List.getElem?_eq_getElem hi]; rfl
    rw [e, gaugeAt_iff] at hj
    simp only [e]
    exact ⟨⟨poly[i], List.getElem?_eq_getElem hi, hj⟩, poly[i], List.getElem?_eq_getElem hi, rfl⟩
  · rintro ⟨⟨b, h1, h2⟩, b', h3, h4⟩
    rw [h1] at h3
    cases h3
    obtain ⟨i, j, p⟩ := s
    simp only at h1 h2 h4
    subst h4
    obtain ⟨hi, rfl⟩ := List.getElem?_eq_some_iff.1 h1
    refine ⟨i, hi, ?_⟩
    have e : (poly.map (relTo f.corner)).getD i ⟨0, 0⟩ = relTo f.corner poly[i] := by
      rw [List.getD_eq_getElem?_getD, List.getElem?_map, List.getElem?_eq_getElem hi]; rfl
    rw [e, gaugeAt_iff.2 h2]
    rfl

theorem select_sorted : ((select x (poly.map (relTo f.corner))).map (·.boundary)).Pairwise (· < ·) := by
  unfold select
  rw [List.pairwise_map, List.pairwise_filterMap]
  refine List.pairwise_lt_range.imp ?_
  intro a b hab s hs t ht
  obtain ⟨j, -, rfl⟩ := Option.map_eq_some_iff.1 hs
  obtain ⟨k, -, rfl⟩ := Option.map_eq_some_iff.1 ht
  exact hab

theorem ids_mem (i : ℕ) : i ∈ (select x (poly.map (relTo f.corner))).map (·.boundary) ↔ Gauged f x poly i := by
  rw [List.mem_map]
  constructor
  · rintro ⟨s, hs, rfl⟩
    exact ⟨_, ((select_mem s).1 hs).1⟩
  · rintro ⟨j, hj⟩
    obtain ⟨b, h1, -⟩ := id hj
    exact ⟨⟨i, j, relTo f.corner b⟩, (select_mem _).2 ⟨hj, b, h1, rfl⟩, rfl⟩

/-! ## Neighbours -/

theorem sorted_get {ids : List ℕ} (hs : ids.Pairwise (· < ·)) {a b : ℕ} (hb : b < ids.length) (hab : a < b) : ids.getD a 0 < ids.getD b 0 := by
  have := List.pairwise_iff_getElem.1 hs a b (by omega) hb hab
  rwa [List.getD_eq_getElem?_getD, List.getD_eq_getElem?_getD, List.getElem?_eq_getElem hb, List.getElem?_eq_getElem (by omega)]

theorem getD_mem {ids : List ℕ} {a : ℕ} (ha : a < ids.length) : ids.getD a 0 ∈ ids := by
  rw [List.getD_eq_getElem?_getD, List.getElem?_eq_getElem ha]
  exact List.getElem_mem ha

theorem neigh_get {n : ℕ} {ids : List ℕ} (hs : ids.Pairwise (· < ·)) (hn : ∀ i ∈ ids, i < n) {j : ℕ} (hj : j < ids.length) (m : ℕ) :
    (neighbours n ids).getD j none = some m ↔ m < ids.length ∧ ids.getD m 0 = (ids.getD j 0 + 1) % n := by
  have hjn := hn _ (getD_mem hj)
  unfold neighbours
  rw [List.getD_eq_getElem?_getD, List.getElem?_map, List.getElem?_range hj]
  simp only [Option.map_some, Option.getD_some]
  by_cases h : j + 1 < ids.length
  · rw [if_pos h]
    have hlt := sorted_get hs h (Nat.lt_succ_self j)
    have hn1 := hn _ (getD_mem h)
    rw [Nat.mod_eq_of_lt (by omega)]
    split_ifs with he
    · constructor
      · intro hm
        cases hm
        exact ⟨h, he.symm⟩
      · rintro ⟨hm, e⟩
        congr 1
        rcases Nat.lt_trichotomy m (j + 1) with hc | hc | hc
        · have := sorted_get hs h hc
          omega
        · exact hc.symm
        · have := sorted_get hs hm hc
          omega
    · simp only [false_iff]
      rintro ⟨hm, e⟩
      rcases Nat.lt_trichotomy m (j + 1) with hc | hc | hc
      · rcases Nat.lt_or_ge m j with hc' | hc'
        · have := sorted_get hs hj hc'
          omega
        · have : m = j := by omega
          subst this
          omega
      · subst hc
        omega
      · have := sorted_get hs hm hc
        omega
  · rw [if_neg h]
    have hmax : ∀ m < ids.length, ids.getD m 0 ≤ ids.getD j 0 := by
      intro m hm
      rcases Nat.lt_or_ge m j with hc | hc
      · exact (sorted_get hs hj hc).le
      · have : m = j := by omega
        rw [this]
    split_ifs with he
    · rw [he.1, Nat.mod_self]
      constructor
      · intro hm
        cases hm
        exact ⟨by omega, he.2⟩
      · rintro ⟨hm, e⟩
        congr 1
        by_contra hne
        have := sorted_get hs hm (Nat.pos_of_ne_zero fun h => hne h.symm)
        omega
    · simp only [false_iff]
      rintro ⟨hm, e⟩
      by_cases hw : ids.getD j 0 + 1 = n
      · rw [hw, Nat.mod_self] at e
        have h0 : ids.getD 0 0 = 0 := by
          rcases Nat.eq_zero_or_pos m with hz | hz
          · rw [hz] at e; exact e
          · have := sorted_get hs hm hz
            omega
        exact he ⟨hw, h0⟩
      · rw [Nat.mod_eq_of_lt (by omega)] at e
        have := hmax m hm
        omega

theorem neigh_length (n : ℕ) (ids : List ℕ) : (neighbours n ids).length = ids.length := by simp [neighbours]

theorem filter_some_none (l : List (Option ℕ)) : (l.filter Option.isSome).length + (l.filter Option.isNone).length = l.length := by
  induction l with
  | nil => rfl
  | cons a l ih => cases a <;> simp <;> omega

/-- The number of segments is right exactly if one gauge has no neighbour. -/
theorem segments_iff (l : List (Option ℕ)) : wrongSegments l = false ↔ ∃! j, j < l.length ∧ l.getD j none = none := by
  unfold wrongSegments
  rw [decide_eq_false_iff_not, not_not]
  have h1 := filter_some_none l
  have h2 : (l.filter Option.isNone).length = ((List.range l.length).filter fun j => (l.getD j none).isNone).length := by
    have e : l = (List.range l.length).map fun j => l.getD j none := by
      apply List.ext_getElem
      · simp
      · intro i h _
        simp [List.getElem?_eq_getElem h]
    conv_lhs => rw [e]
    rw [List.filter_map, List.length_map]
    rfl
  have h3 : (l.filter Option.isSome).length + 1 = l.length ↔ (l.filter Option.isNone).length = 1 := by omega
  rw [h3, h2]
  have hnd : ((List.range l.length).filter fun j => (l.getD j none).isNone).Nodup := List.nodup_range.filter _
  have hmem : ∀ j, j ∈ ((List.range l.length).filter fun j => (l.getD j none).isNone) ↔ j < l.length ∧ l.getD j none = none := by
    intro j
    rw [List.mem_filter, List.mem_range, Option.isNone_iff_eq_none]
  generalize ((List.range l.length).filter fun j => (l.getD j none).isNone) = L at hnd hmem
  simp only [← hmem]
  constructor
  · intro h
    obtain ⟨a, rfl⟩ := List.length_eq_one_iff.1 h
    exact ⟨a, by simp, by simp⟩
  · rintro ⟨a, ha, hu⟩
    have : L = [a] := by
      match L, hnd, ha, hu with
      | [b], _, ha, _ => simp at ha; rw [ha]
      | b :: c :: L, hnd, _, hu =>
        have := hu b (by simp)
        have := hu c (by simp)
        simp at hnd
        exact absurd (by rw [hu b (by simp), hu c (by simp)]) hnd.1.1
    rw [this]
    rfl

/-! ## The polyline -/

theorem dist_along {sq : K → K} (hs : IsSqrt sq) {t dx dy : K} (ht : 0 ≤ t) : dist sq (t * dx) (t * dy) = t * dist sq dx dy := by
  unfold dist
  have h0 : 0 ≤ dx * dx + dy * dy := add_nonneg (mul_self_nonneg _) (mul_self_nonneg _)
  have e : t * dx * (t * dx) + t * dy * (t * dy) = t * t * (dx * dx + dy * dy) := by ring
  obtain ⟨h1, h2⟩ := hs _ h0
  obtain ⟨h3, h4⟩ := hs (t * t * (dx * dx + dy * dy)) (mul_nonneg (mul_self_nonneg _) h0)
  rw [e]
  have h5 : sq (t * t * (dx * dx + dy * dy)) * sq (t * t * (dx * dx + dy * dy)) = (t * sq (dx * dx + dy * dy)) * (t * sq (dx * dx + dy * dy)) := by
    rw [h4]
    conv_lhs => rw [← h2]
    ring
  exact (mul_self_inj h3 (mul_nonneg ht h1)).1 h5

theorem dist_ne {sq : K → K} (hs : IsSqrt sq) {a b : Pt K} (hab : a ≠ b) : dist sq (b.x - a.x) (b.y - a.y) ≠ 0 := by
  intro h
  have h0 : 0 ≤ (b.x - a.x) * (b.x - a.x) + (b.y - a.y) * (b.y - a.y) := add_nonneg (mul_self_nonneg _) (mul_self_nonneg _)
  have h2 := (hs _ h0).2
  unfold dist at h
  rw [h, mul_zero] at h2
  have hx : (b.x - a.x) * (b.x - a.x) = 0 := by nlinarith [mul_self_nonneg (b.x - a.x), mul_self_nonneg (b.y - a.y)]
  have hy : (b.y - a.y) * (b.y - a.y) = 0 := by nlinarith [mul_self_nonneg (b.x - a.x), mul_self_nonneg (b.y - a.y)]
  apply hab
  have hx' : a.x = b.x := by linarith [mul_self_eq_zero.1 hx]
  have hy' : a.y = b.y := by linarith [mul_self_eq_zero.1 hy]
  cases a; cases b
  simp only at hx' hy'
  rw [hx', hy']

/-- The value given by a segment on which the point lies. -/
theorem seg_value {sq : K → K} (hs : IsSqrt sq) {a b p : Pt K} (hab : a ≠ b) {t : K} (ht : 0 ≤ t) (hx : p.x = a.x + t * (b.x - a.x))
    (hy : p.y = a.y + t * (b.y - a.y)) (da db : K) :
    (db - da) / dist sq (b.x - a.x) (b.y - a.y) * dist sq (p.x - a.x) (p.y - a.y) + da = da + t * (db - da) := by
  have e1 : p.x - a.x = t * (b.x - a.x) := by rw [hx]; ring
  have e2 : p.y - a.y = t * (b.y - a.y) := by rw [hy]; ring
  rw [e1, e2, dist_along hs ht, div_mul_eq_mul_div, show (db - da) * (t * dist sq (b.x - a.x) (b.y - a.y)) =
    (t * (db - da)) * dist sq (b.x - a.x) (b.y - a.y) by ring, mul_div_assoc, div_self (dist_ne hs hab)]
  ring

theorem off_not_onLine {p a b : Pt K} (h : Off p a b) : onLine (1 / 10 ^ 6) (1 / 10 ^ 8) p a b = false := by
  by_contra hc
  rw [Bool.not_eq_false] at hc
  obtain ⟨q, h1, h2⟩ := near_of_onLine hc
  exact absurd h2 (not_le.2 (h q h1))

/-- A loop that replaces the value: the result if all replacements agree. -/
theorem foldl_replace {step : K → ℕ → K} {on : ℕ → Prop} (w : K) : ∀ (l : List ℕ), (∀ j ∈ l, (on j ∧ ∀ v, step v j = w) ∨ (¬ on j ∧ ∀ v, step v j = v)) →
    ∀ v, (∀ j ∈ l, ¬ on j) ∧ l.foldl step v = v ∨ (∃ j ∈ l, on j) ∧ l.foldl step v = w := by
  intro l
  induction l with
  | nil => intro _ v; exact Or.inl ⟨by simp, rfl⟩
  | cons a l ih =>
    intro h v
    rw [List.foldl_cons]
    have hl := ih fun j hj => h j (by simp [hj])
    rcases h a (by simp) with ⟨h1, h2⟩ | ⟨h1, h2⟩
    · rw [h2]
      right
      refine ⟨⟨a, by simp, h1⟩, ?_⟩
      rcases hl w with ⟨-, e⟩ | ⟨-, e⟩ <;> exact e
    · rw [h2]
      rcases hl v with ⟨k, e⟩ | ⟨⟨j, hj, k⟩, e⟩
      · left
        exact ⟨fun j hj => by rcases List.mem_cons.1 hj with rfl | hj; exact h1; exact k j hj, e⟩
      · right
        exact ⟨⟨j, by simp [hj], k⟩, e⟩

end Verif.Sts
