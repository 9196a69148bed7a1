import Verif.Wall.Spec
import Mathlib.Tactic.LinearCombination
import Mathlib.Tactic.FieldSimp
import Mathlib.Tactic.Linarith
import Mathlib.Tactic.Ring
import Mathlib.Algebra.Order.Ring.Abs

/-! # Lemmas for river walls: geometry, order of segments, numbering -/

set_option linter.unusedSectionVars false

namespace Verif.Wall

variable {K : Type*} [Field K] [LinearOrder K] [IsStrictOrderedRing K]

theorem segLen_sq {sq : K → K} (hs : IsSqrt sq) (a b : Pt3 K) : 0 ≤ segLen sq a b ∧ segLen sq a b * segLen sq a b = len2 a b := by
  have h : 0 ≤ (a.1 - b.1) ^ 2 + (a.2.1 - b.2.1) ^ 2 := by positivity
  obtain ⟨h1, h2⟩ := hs _ h
  refine ⟨h1, ?_⟩
  unfold segLen len2
  rw [h2]
  ring

theorem perp_eq {sq : K → K} (hs : IsSqrt sq) (xll yll : K) (a b : Pt3 K) (p : K × K) :
    perp sq xll yll a b p = (p.1 + xll - a.1) ^ 2 + (p.2 + yll - a.2.1) ^ 2 - dot sq xll yll a b p ^ 2 := by
  unfold perp
  rw [pow_two (sq _), (hs _ (by positivity)).2]
  ring

theorem dot_mul {sq : K → K} {xll yll : K} {a b : Pt3 K} (h : segLen sq a b ≠ 0) (p : K × K) :
    dot sq xll yll a b p * segLen sq a b = (p.1 + xll - a.1) * (b.1 - a.1) + (p.2 + yll - a.2.1) * (b.2.1 - a.2.1) := by
  unfold dot
  field_simp
  ring

theorem strip_iff {sq : K → K} (hs : IsSqrt sq) {tol xll yll : K} (ht : 0 < tol) (a b : Pt3 K) (p : K × K) :
    (¬ segLen sq a b < tol ∧ onLevee sq tol xll yll a b p = true) ↔ Strip tol a b (p.1 + xll, p.2 + yll) := by
  obtain ⟨h0, h1⟩ := segLen_sq hs a b
  unfold onLevee
  simp only [Bool.and_eq_true, decide_eq_true_eq, not_lt, zero_sub, gt_iff_lt]
  rw [perp_eq hs]
  constructor
  · rintro ⟨hL, ⟨k1, k2⟩, k3⟩
    have hpos : 0 < segLen sq a b := lt_of_lt_of_le ht hL
    have hd := dot_mul (xll := xll) (yll := yll) hpos.ne' p
    set L := segLen sq a b
    set c := dot sq xll yll a b p
    have e1 : L * (p.1 + xll - a.1) = c * (b.1 - a.1) - ((b.1 - a.1) * (p.2 + yll - a.2.1) - (b.2.1 - a.2.1) * (p.1 + xll - a.1)) / L * (b.2.1 - a.2.1) := by
      refine mul_left_cancel₀ hpos.ne' ?_
      have : L * (c * (b.1 - a.1) - ((b.1 - a.1) * (p.2 + yll - a.2.1) - (b.2.1 - a.2.1) * (p.1 + xll - a.1)) / L * (b.2.1 - a.2.1)) =
        (c * L) * (b.1 - a.1) - ((b.1 - a.1) * (p.2 + yll - a.2.1) - (b.2.1 - a.2.1) * (p.1 + xll - a.1)) * (b.2.1 - a.2.1) := by field_simp
      rw [this, hd]
      unfold len2 at h1
      linear_combination (p.1 + xll - a.1) * h1
    have e2 : L * (p.2 + yll - a.2.1) = c * (b.2.1 - a.2.1) + ((b.1 - a.1) * (p.2 + yll - a.2.1) - (b.2.1 - a.2.1) * (p.1 + xll - a.1)) / L * (b.1 - a.1) := by
      refine mul_left_cancel₀ hpos.ne' ?_
      have : L * (c * (b.2.1 - a.2.1) + ((b.1 - a.1) * (p.2 + yll - a.2.1) - (b.2.1 - a.2.1) * (p.1 + xll - a.1)) / L * (b.1 - a.1)) =
        (c * L) * (b.2.1 - a.2.1) + ((b.1 - a.1) * (p.2 + yll - a.2.1) - (b.2.1 - a.2.1) * (p.1 + xll - a.1)) * (b.1 - a.1) := by field_simp
      rw [this, hd]
      unfold len2 at h1
      linear_combination (p.2 + yll - a.2.1) * h1
    refine ⟨L, c, ((b.1 - a.1) * (p.2 + yll - a.2.1) - (b.2.1 - a.2.1) * (p.1 + xll - a.1)) / L, hpos, hL, h1, e1, e2, ?_, k2, k3⟩
    set d := ((b.1 - a.1) * (p.2 + yll - a.2.1) - (b.2.1 - a.2.1) * (p.1 + xll - a.1)) / L
    have e3 : (p.1 + xll - a.1) ^ 2 + (p.2 + yll - a.2.1) ^ 2 - c ^ 2 = d ^ 2 := by
      refine mul_left_cancel₀ (mul_pos hpos hpos).ne' ?_
      have : L * L * ((p.1 + xll - a.1) ^ 2 + (p.2 + yll - a.2.1) ^ 2 - c ^ 2) = (L * (p.1 + xll - a.1)) ^ 2 + (L * (p.2 + yll - a.2.1)) ^ 2 - L * L * c ^ 2 := by ring
      rw [this, e1, e2, h1]
      unfold len2
      ring
    rw [e3] at k1
    have := sq_lt_sq.mp k1
    rwa [abs_of_pos ht] at this
  · rintro ⟨L, c, d, l0, l1, l2, e1, e2, k1, k2, k3⟩
    have hL : segLen sq a b = L := (mul_self_inj h0 l0.le).mp (h1.trans l2.symm)
    have hpos : segLen sq a b ≠ 0 := by rw [hL]; exact l0.ne'
    have hd := dot_mul (xll := xll) (yll := yll) hpos p
    simp only at e1 e2
    rw [hL] at hd
    have hc : dot sq xll yll a b p = c := by
      refine mul_right_cancel₀ (mul_pos l0 l0).ne' ?_
      have : dot sq xll yll a b p * (L * L) = L * ((p.1 + xll - a.1) * (b.1 - a.1) + (p.2 + yll - a.2.1) * (b.2.1 - a.2.1)) := by rw [← hd]; ring
      rw [this, l2]
      unfold len2
      linear_combination (b.1 - a.1) * e1 + (b.2.1 - a.2.1) * e2
    have e3 : (p.1 + xll - a.1) ^ 2 + (p.2 + yll - a.2.1) ^ 2 - c ^ 2 = d ^ 2 := by
      refine mul_left_cancel₀ (mul_pos l0 l0).ne' ?_
      have : L * L * ((p.1 + xll - a.1) ^ 2 + (p.2 + yll - a.2.1) ^ 2 - c ^ 2) = (L * (p.1 + xll - a.1)) ^ 2 + (L * (p.2 + yll - a.2.1)) ^ 2 - L * L * c ^ 2 := by ring
      rw [this, e1, e2, l2]
      unfold len2
      ring
    rw [hL, hc, e3]
    refine ⟨l1, ⟨?_, k2⟩, k3⟩
    rw [sq_lt_sq, abs_of_pos ht]
    exact k1

theorem crest {sq : K → K} (hs : IsSqrt sq) {xll yll : K} {a b : Pt3 K} (h : 0 < segLen sq a b) (p : K × K) :
    Crest a b (p.1 + xll, p.2 + yll) (a.2.2 * (1 - weight sq xll yll a b p) + weight sq xll yll a b p * b.2.2) := by
  obtain ⟨-, h1⟩ := segLen_sq hs a b
  have hd := dot_mul (xll := xll) (yll := yll) h.ne' p
  have key : ∀ t, dist2 a b (p.1 + xll, p.2 + yll) t =
      (p.1 + xll - a.1) ^ 2 + (p.2 + yll - a.2.1) ^ 2 - 2 * t * (dot sq xll yll a b p * segLen sq a b) + t ^ 2 * (segLen sq a b * segLen sq a b) := by
    intro t
    rw [hd, h1]
    unfold dist2 len2
    ring
  refine ⟨weight sq xll yll a b p, ?_, ?_, ?_, by ring⟩
  all_goals
    unfold weight
    simp only
    set c := dot sq xll yll a b p
    set L := segLen sq a b
  · by_cases h0 : c / L ≥ 0
    · rw [if_pos h0, mul_one]
      by_cases h2 : c / L ≤ 1
      · rw [if_pos h2, if_neg (not_lt.mpr h2)]; linarith
      · rw [if_neg h2, if_pos (not_le.mp h2)]; linarith
    · rw [if_neg h0]; simp [(zero_lt_one (α := K)).not_gt]
  · by_cases h0 : c / L ≥ 0
    · rw [if_pos h0, mul_one]
      by_cases h2 : c / L ≤ 1
      · rw [if_pos h2, if_neg (not_lt.mpr h2)]; linarith
      · rw [if_neg h2, if_pos (not_le.mp h2)]; linarith
    · rw [if_neg h0]; simp [(zero_lt_one (α := K)).not_gt]
  · intro r r0 r1
    rw [key, key]
    by_cases h0 : c / L ≥ 0
    · rw [if_pos h0, mul_one]
      by_cases h2 : c / L ≤ 1
      · rw [if_pos h2, if_neg (not_lt.mpr h2)]
        have e : c = c / L * L := (div_mul_cancel₀ c h.ne').symm
        set t := c / L
        have : 0 ≤ (r - t) ^ 2 * (L * L) := by positivity
        rw [e]
        linarith
      · rw [if_neg h2, if_pos (not_le.mp h2)]
        have h3 : L < c := by rw [not_le, lt_div_iff₀ h] at h2; linarith
        have : 0 ≤ (1 - r) * (L * (2 * c - (r + 1) * L)) := by
          refine mul_nonneg (by linarith) (mul_nonneg h.le ?_)
          have := mul_le_mul_of_nonneg_right (by linarith : r + 1 ≤ 2) h.le
          linarith
        linarith
    · rw [if_neg h0]
      have h3 : c < 0 := by
        by_contra hc
        exact h0 (div_nonneg (not_lt.mp hc) h.le)
      have : 0 ≤ r * (L * (r * L - 2 * c)) := mul_nonneg r0 (mul_nonneg h.le (by have := mul_nonneg r0 h.le; linarith))
      simp only [mul_zero, zero_le_one, if_true, not_lt_of_ge (zero_le_one (α := K)), if_false]
      linarith

/-! ## Order of segments -/

/-- Segments with both numbers. -/
def idxOf (i j : ℕ) : List (Pt3 K) → List ((ℕ × ℕ) × Pt3 K × Pt3 K)
  | a :: b :: l => ((i, j), a, b) :: idxOf i (j + 1) (b :: l)
  | _ => []

def idxFrom (i : ℕ) : List (String × List (Pt3 K)) → List ((ℕ × ℕ) × Pt3 K × Pt3 K)
  | [] => []
  | w :: ws => idxOf i 0 w.2 ++ idxFrom (i + 1) ws

def forget (e : (ℕ × ℕ) × Pt3 K × Pt3 K) : ℕ × Pt3 K × Pt3 K := (e.1.1, e.2)

theorem segsOf_eq (i j : ℕ) : ∀ l : List (Pt3 K), segsOf i l = (idxOf i j l).map forget
  | [] => rfl
  | [_] => rfl
  | a :: b :: l => by
    unfold segsOf idxOf
    rw [List.map_cons, ← segsOf_eq i (j + 1) (b :: l)]
    rfl

theorem segsFrom_eq (ws : List (String × List (Pt3 K))) : ∀ i, segsFrom i ws = (idxFrom i ws).map forget := by
  induction ws with
  | nil => intro i; rfl
  | cons w ws ih =>
    intro i
    unfold segsFrom idxFrom
    rw [List.map_append, ← ih, ← segsOf_eq]

theorem mem_idxOf (i j : ℕ) (e : (ℕ × ℕ) × Pt3 K × Pt3 K) : ∀ l : List (Pt3 K),
    e ∈ idxOf i j l ↔ ∃ k, e.1 = (i, j + k) ∧ l[k]? = some e.2.1 ∧ l[k + 1]? = some e.2.2 := by
  intro l
  induction l generalizing j with
  | nil => simp [idxOf]
  | cons a l ih =>
    cases l with
    | nil => simp [idxOf]
    | cons b l =>
      unfold idxOf
      rw [List.mem_cons, ih]
      constructor
      · rintro (rfl | ⟨k, h1, h2, h3⟩)
        · exact ⟨0, rfl, rfl, rfl⟩
        · exact ⟨k + 1, by rw [h1]; congr 1; omega, h2, h3⟩
      · rintro ⟨k, h1, h2, h3⟩
        cases k with
        | zero =>
          left
          obtain ⟨e1, e2, e3⟩ := e
          simp only [List.getElem?_cons_zero, List.getElem?_cons_succ, Option.some.injEq, add_zero, zero_add] at h1 h2 h3
          rw [h1, h2, h3]
        | succ k => exact Or.inr ⟨k, by rw [h1]; congr 1; omega, h2, h3⟩

theorem mem_idxFrom (e : (ℕ × ℕ) × Pt3 K × Pt3 K) (ws : List (String × List (Pt3 K))) : ∀ i,
    e ∈ idxFrom i ws ↔ ∃ k, e.1.1 = i + k ∧ Segment ws k e.1.2 e.2.1 e.2.2 := by
  induction ws with
  | nil => intro i; simp [idxFrom, Segment]
  | cons w ws ih =>
    intro i
    unfold idxFrom
    rw [List.mem_append, ih, mem_idxOf]
    constructor
    · rintro (⟨k, h1, h2, h3⟩ | ⟨k, h1, h2⟩)
      · refine ⟨0, by rw [h1]; rfl, w, rfl, ?_⟩
        rw [h1]
        simpa using ⟨h2, h3⟩
      · exact ⟨k + 1, by omega, h2⟩
    · rintro ⟨k, h1, w', h2, h3, h4⟩
      cases k with
      | zero =>
        obtain rfl := Option.some.inj h2
        exact Or.inl ⟨e.1.2, by rw [zero_add, ← show e.1.1 = i by omega], h3, h4⟩
      | succ k => exact Or.inr ⟨k, by omega, w', h2, h3, h4⟩

theorem idxOf_sorted (i : ℕ) (l : List (Pt3 K)) : ∀ j, (idxOf i j l).Pairwise fun e f => Later e.1.1 e.1.2 f.1.1 f.1.2 := by
  induction l with
  | nil => intro j; exact List.Pairwise.nil
  | cons a l ih =>
    intro j
    cases l with
    | nil => exact List.Pairwise.nil
    | cons b l =>
      unfold idxOf
      rw [List.pairwise_cons]
      refine ⟨fun f hf => ?_, ih (j + 1)⟩
      obtain ⟨k, h1, -⟩ := (mem_idxOf i (j + 1) f _).mp hf
      rw [h1]
      exact Or.inr ⟨rfl, by simp only; omega⟩

theorem idxFrom_sorted (ws : List (String × List (Pt3 K))) : ∀ i, (idxFrom i ws).Pairwise fun e f => Later e.1.1 e.1.2 f.1.1 f.1.2 := by
  induction ws with
  | nil => intro i; exact List.Pairwise.nil
  | cons w ws ih =>
    intro i
    unfold idxFrom
    rw [List.pairwise_append]
    refine ⟨idxOf_sorted i w.2 0, ih (i + 1), fun e he f hf => ?_⟩
    obtain ⟨k, h1, -⟩ := (mem_idxOf i 0 e _).mp he
    obtain ⟨k', h2, -⟩ := (mem_idxFrom f ws (i + 1)).mp hf
    left
    rw [h1, h2]
    simp only
    omega

theorem later_irrefl {i j : ℕ} : ¬ Later i j i j := by unfold Later; omega

theorem later_asymm {i j i' j' : ℕ} (h : Later i j i' j') : ¬ Later i' j' i j := by unfold Later at *; omega

/-! ## Marking -/

variable {sq : K → K} {D : Dom K} {tol maxFloat : K}

/-- The segment marks the edge. -/
def Hit (sq : K → K) (D : Dom K) (tol : K) (s : ℕ × Pt3 K × Pt3 K) (e : ℕ) : Prop :=
  ¬ segLen sq s.2.1 s.2.2 < tol ∧ onLevee sq tol D.xll D.yll s.2.1 s.2.2 (D.mid e) = true

/-- Elevation the segment gives to the edge. -/
def elevOf (sq : K → K) (D : Dom K) (s : ℕ × Pt3 K × Pt3 K) (e : ℕ) : K :=
  s.2.1.2.2 * (1 - weight sq D.xll D.yll s.2.1 s.2.2 (D.mid e)) + weight sq D.xll D.yll s.2.1 s.2.2 (D.mid e) * s.2.2.2.2

theorem markSeg_hit {m : Marks K} {s : ℕ × Pt3 K × Pt3 K} {e : ℕ} (h : Hit sq D tol s e) :
    (markSeg sq D tol m s).flux e = 1 ∧ (markSeg sq D tol m s).elev e = elevOf sq D s e ∧ (markSeg sq D tol m s).row e = s.1 := by
  obtain ⟨i, a, b⟩ := s
  obtain ⟨h1, h2⟩ := h
  simp only at h1 h2
  unfold markSeg
  simp only [if_neg h1, h2, if_true]
  exact ⟨trivial, rfl, trivial⟩

theorem markSeg_miss {m : Marks K} {s : ℕ × Pt3 K × Pt3 K} {e : ℕ} (h : ¬ Hit sq D tol s e) :
    (markSeg sq D tol m s).flux e = m.flux e ∧ (markSeg sq D tol m s).elev e = m.elev e ∧ (markSeg sq D tol m s).row e = m.row e := by
  obtain ⟨i, a, b⟩ := s
  unfold markSeg
  simp only
  by_cases h1 : segLen sq a b < tol
  · rw [if_pos h1]
    exact ⟨rfl, rfl, rfl⟩
  · rw [if_neg h1]
    have h2 : onLevee sq tol D.xll D.yll a b (D.mid e) = false := by
      rw [Bool.eq_false_iff]
      exact fun h2 => h ⟨h1, h2⟩
    simp [h2]

theorem fold_mark (e : ℕ) (l : List (ℕ × Pt3 K × Pt3 K)) : ∀ m : Marks K,
    ((∀ s ∈ l, ¬ Hit sq D tol s e) ∧ (l.foldl (markSeg sq D tol) m).flux e = m.flux e ∧ (l.foldl (markSeg sq D tol) m).elev e = m.elev e ∧
      (l.foldl (markSeg sq D tol) m).row e = m.row e) ∨
    ∃ p s q, l = p ++ s :: q ∧ Hit sq D tol s e ∧ (∀ r ∈ q, ¬ Hit sq D tol r e) ∧ (l.foldl (markSeg sq D tol) m).flux e = 1 ∧
      (l.foldl (markSeg sq D tol) m).elev e = elevOf sq D s e ∧ (l.foldl (markSeg sq D tol) m).row e = s.1 := by
  induction l with
  | nil => intro m; exact Or.inl ⟨by simp, rfl, rfl, rfl⟩
  | cons s l ih =>
    intro m
    rw [List.foldl_cons]
    rcases ih (markSeg sq D tol m s) with ⟨h0, h1, h2, h3⟩ | ⟨p, s', q, h0, h1⟩
    · by_cases hs : Hit sq D tol s e
      · obtain ⟨k1, k2, k3⟩ := markSeg_hit (m := m) hs
        exact Or.inr ⟨[], s, l, rfl, hs, h0, h1.trans k1, h2.trans k2, h3.trans k3⟩
      · obtain ⟨k1, k2, k3⟩ := markSeg_miss (m := m) hs
        refine Or.inl ⟨fun r hr => ?_, h1.trans k1, h2.trans k2, h3.trans k3⟩
        rcases List.mem_cons.mp hr with rfl | hr
        · exact hs
        · exact h0 r hr
    · exact Or.inr ⟨s :: p, s', q, by rw [h0]; rfl, h1⟩

/-- Marks of an edge after all segments. -/
theorem mark_spec (hs : IsSqrt sq) (ht : 0 < tol) (flux : ℕ → ℕ) (walls : List (String × List (Pt3 K))) (e : ℕ) :
    (¬ Walled D tol walls e ∧ (mark sq D maxFloat tol flux walls).flux e = flux e ∧ (mark sq D maxFloat tol flux walls).elev e = -maxFloat ∧
      (mark sq D maxFloat tol flux walls).row e = -1) ∨
    ∃ i j a b, Segment walls i j a b ∧ Strip tol a b (D.place e) ∧
      (∀ i' j' a' b', Later i j i' j' → Segment walls i' j' a' b' → ¬ Strip tol a' b' (D.place e)) ∧
      (mark sq D maxFloat tol flux walls).flux e = 1 ∧ Crest a b (D.place e) ((mark sq D maxFloat tol flux walls).elev e) ∧
      (mark sq D maxFloat tol flux walls).row e = i := by
  have hhit : ∀ s, Hit sq D tol s e ↔ Strip tol s.2.1 s.2.2 (D.place e) := fun s => strip_iff hs ht _ _ _
  have hseg : ∀ i j a b, Segment walls i j a b ↔ ((i, j), a, b) ∈ idxFrom 0 walls := by
    intro i j a b
    rw [mem_idxFrom]
    simp only [zero_add]
    constructor
    · intro h; exact ⟨i, rfl, h⟩
    · rintro ⟨k, rfl, h⟩; exact h
  unfold mark
  rw [segsFrom_eq]
  rcases fold_mark e ((idxFrom 0 walls).map forget) (⟨flux, fun _ => 0 - maxFloat, fun _ => -1⟩ : Marks K) with ⟨h0, h1, h2, h3⟩ | ⟨p, s, q, h0, h1, h2, h3, h4, h5⟩
  · refine Or.inl ⟨?_, h1, h2.trans (zero_sub _), h3⟩
    rintro ⟨i, j, a, b, h4, h5⟩
    exact h0 (i, a, b) (List.mem_map.mpr ⟨((i, j), a, b), (hseg i j a b).mp h4, rfl⟩) ((hhit _).mpr h5)
  · right
    obtain ⟨p', r', e1, rfl, e2⟩ := List.map_eq_append_iff.mp h0
    obtain ⟨s', q', rfl, rfl, rfl⟩ := List.map_eq_cons_iff.mp e2
    obtain ⟨⟨i, j⟩, a, b⟩ := s'
    refine ⟨i, j, a, b, ?_, (hhit _).mp h1, ?_, h3, ?_, h5⟩
    · rw [hseg, e1]
      simp
    · intro i' j' a' b' hl hseg' hstrip
      rw [hseg, e1] at hseg'
      have hsort := idxFrom_sorted walls 0
      rw [e1, List.pairwise_append, List.pairwise_cons] at hsort
      rcases List.mem_append.mp hseg' with hm | hm
      · exact later_asymm hl (hsort.2.2 _ hm ((i, j), a, b) List.mem_cons_self)
      · rcases List.mem_cons.mp hm with hm | hm
        · simp only [Prod.mk.injEq] at hm
          obtain ⟨⟨rfl, rfl⟩, -⟩ := hm
          exact later_irrefl hl
        · exact h2 (i', a', b') (List.mem_map.mpr ⟨_, hm, rfl⟩) ((hhit _).mpr hstrip)
    · rw [h4]
      exact crest hs (lt_of_lt_of_le ht (not_lt.mp h1.1)) _

/-! ## Numbering -/

theorem number_get (fs : List ℕ) : ∀ (c e : ℕ) (h : e < fs.length),
    (number c fs)[e]? = some (if fs[e] = 1 then c + (fs.take e).countP (fun f => decide (f = 1)) + 1 else 0) := by
  induction fs with
  | nil => intro c e h; simp at h
  | cons f fs ih =>
    intro c e h
    unfold number
    cases e with
    | zero =>
      simp only [List.take_zero, List.countP_nil, List.getElem_cons_zero, add_zero]
      split_ifs <;> rfl
    | succ e =>
      have h' : e < fs.length := by simpa using h
      by_cases hf : f = 1
      · rw [if_pos hf, List.getElem?_cons_succ, ih (c + 1) e h', List.getElem_cons_succ, List.take_succ_cons, List.countP_cons_of_pos (by simpa using hf)]
        congr 2
        omega
      · rw [if_neg hf, List.getElem?_cons_succ, ih c e h', List.getElem_cons_succ, List.take_succ_cons, List.countP_cons_of_neg (by simpa using hf)]

theorem filter_get (p : ℕ → Bool) {n e : ℕ} (h : e < n) (hp : p e = true) : ((List.range n).filter p)[(List.range e).countP p]? = some e := by
  obtain ⟨k, rfl⟩ : ∃ k, n = e + (k + 1) := ⟨n - e - 1, by omega⟩
  rw [List.range_add, List.filter_append, List.countP_eq_length_filter, List.getElem?_append_right le_rfl, Nat.sub_self, List.range_succ_eq_map,
    List.map_cons, List.filter_cons_of_pos (by simpa using hp)]
  simp

end Verif.Wall
