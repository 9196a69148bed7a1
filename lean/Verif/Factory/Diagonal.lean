import Verif.Factory.Geometry

/-! # Triangles of the diagonal mesh -/

namespace Verif.Factory

set_option linter.unusedSectionVars false

open Verif.Polygon (Pt)
open Verif.Mesh

/-- The corners of triangle `t` of a cell, as corners of the cell. -/
def ra : ℕ → ℕ
  | 0 => 1
  | _ => 3

def rb : ℕ → ℕ
  | 0 => 2
  | _ => 0

def rc : ℕ → ℕ
  | 0 => 0
  | _ => 2

/-- Corner `q` of cell `(i, j)`. -/
def cor (n i j q : ℕ) : ℕ := gnode n (i + qx q) (j + qy q)

def rtri (n i j t : ℕ) : ℕ × ℕ × ℕ := (cor n i j (ra t), cor n i j (rb t), cor n i j (rc t))

def rectElems (m n : ℕ) : List (ℕ × ℕ × ℕ) := (loop2 m n).flatMap (rect2 n)

theorem rectElems_length (m n : ℕ) : (rectElems m n).length = 2 * (m * n) := by
  unfold rectElems
  rw [flatMap_length _ 2 (fun _ => rfl), loop2_length]

theorem rectElems_get (m n i j t : ℕ) (hi : i < m) (hj : j < n) (ht : t < 2) : (rectElems m n)[2 * (i * n + j) + t]? = some (rtri n i j t) := by
  unfold rectElems
  rw [flatMap_get _ 2 (fun _ => rfl) _ _ _ ht, loop2_get m n i j hi hj]
  interval_cases t <;> rfl

theorem rect_split {m n k : ℕ} (h : k < 2 * (m * n)) : ∃ i j t, i < m ∧ j < n ∧ t < 2 ∧ k = 2 * (i * n + j) + t := by
  obtain ⟨h1, h2, h3⟩ := split_index (m := m) (n := n) (k := k / 2) (by omega)
  exact ⟨k / 2 / n, k / 2 % n, k % 2, h1, h2, by omega, by omega⟩

theorem rect_elem {m n k : ℕ} {T : ℕ × ℕ × ℕ} : (rectElems m n)[k]? = some T ↔
    ∃ i j t, i < m ∧ j < n ∧ t < 2 ∧ k = 2 * (i * n + j) + t ∧ T = rtri n i j t := by
  constructor
  · intro h
    have hk := (List.getElem?_eq_some_iff.mp h).1
    rw [rectElems_length] at hk
    obtain ⟨i, j, t, hi, hj, ht, rfl⟩ := rect_split hk
    rw [rectElems_get m n i j t hi hj ht] at h
    exact ⟨i, j, t, hi, hj, ht, rfl, (Option.some.inj h).symm⟩
  · rintro ⟨i, j, t, hi, hj, ht, rfl, rfl⟩
    exact rectElems_get m n i j t hi hj ht

theorem rect_num_inj {n i j t i' j' t' : ℕ} (hj : j < n) (hj' : j' < n) (ht : t < 2) (ht' : t' < 2)
    (h : 2 * (i * n + j) + t = 2 * (i' * n + j') + t') : i = i' ∧ j = j' ∧ t = t' := by
  have h1 : t = t' := by omega
  obtain ⟨h2, h3⟩ := pair_inj (n := n) (i := i) (i' := i') hj hj' (by omega)
  exact ⟨h2, h3, h1⟩

theorem rect_dirEdge {m n k e a b : ℕ} : DirEdge (rectElems m n) k e a b ↔
    ∃ i j t, i < m ∧ j < n ∧ t < 2 ∧ k = 2 * (i * n + j) + t ∧
      ((e = 0 ∧ a = cor n i j (rb t) ∧ b = cor n i j (rc t)) ∨ (e = 1 ∧ a = cor n i j (rc t) ∧ b = cor n i j (ra t)) ∨
        (e = 2 ∧ a = cor n i j (ra t) ∧ b = cor n i j (rb t))) := by
  unfold DirEdge
  constructor
  · rintro ⟨n0, n1, n2, h, hh⟩
    obtain ⟨i, j, t, hi, hj, ht, rfl, hT⟩ := rect_elem.mp h
    simp only [rtri, Prod.mk.injEq] at hT
    obtain ⟨rfl, rfl, rfl⟩ := hT
    exact ⟨i, j, t, hi, hj, ht, rfl, hh⟩
  · rintro ⟨i, j, t, hi, hj, ht, rfl, hh⟩
    exact ⟨_, _, _, rectElems_get m n i j t hi hj ht, hh⟩

theorem cor_inj {n i j q i' j' q' : ℕ} (hj : j < n) (hj' : j' < n) (h : cor n i j q = cor n i' j' q') : i + qx q = i' + qx q' ∧ j + qy q = j' + qy q' :=
  gnode_inj (by have := qy_le q; omega) (by have := qy_le q'; omega) h

theorem rect_conforming (m n : ℕ) : Conforming (rectElems m n) := by
  intro k e k' e' a b h h'
  obtain ⟨i, j, t, hi, hj, ht, rfl, g⟩ := rect_dirEdge.mp h
  obtain ⟨i', j', t', hi', hj', ht', rfl, g'⟩ := rect_dirEdge.mp h'
  have key : i = i' ∧ j = j' ∧ t = t' ∧ e = e' := by
    rcases g with ⟨rfl, ha, hb⟩ | ⟨rfl, ha, hb⟩ | ⟨rfl, ha, hb⟩ <;> rcases g' with ⟨rfl, ha', hb'⟩ | ⟨rfl, ha', hb'⟩ | ⟨rfl, ha', hb'⟩ <;>
    · obtain ⟨a1, a2⟩ := cor_inj hj hj' (ha.symm.trans ha')
      obtain ⟨b1, b2⟩ := cor_inj hj hj' (hb.symm.trans hb')
      interval_cases t <;> interval_cases t' <;> simp only [ra, rb, rc, qx, qy] at a1 a2 b1 b2 <;> omega
  obtain ⟨rfl, rfl, rfl, rfl⟩ := key
  exact ⟨rfl, rfl⟩

/-- Edge `e` of triangle `t` of cell `(i, j)` lies on the border of the rectangle. -/
def RimR (m n i j t e : ℕ) : Prop :=
  (t = 0 ∧ e = 2 ∧ i + 1 = m) ∨ (t = 0 ∧ e = 1 ∧ j = 0) ∨ (t = 1 ∧ e = 2 ∧ i = 0) ∨ (t = 1 ∧ e = 1 ∧ j + 1 = n)

theorem rect_across {m n i j t e : ℕ} (hi : i < m) (hj : j < n) (ht : t < 2) (he : e < 3) :
    (¬ ∃ l e', Across (rectElems m n) (2 * (i * n + j) + t) e l e') ↔ RimR m n i j t e := by
  constructor
  · intro h
    by_contra hr
    apply h
    unfold RimR at hr
    interval_cases t <;> interval_cases e
    · exact ⟨2 * (i * n + j) + 1, 0, _, _, rect_dirEdge.mpr ⟨i, j, 0, hi, hj, ht, rfl, Or.inl ⟨rfl, rfl, rfl⟩⟩,
        rect_dirEdge.mpr ⟨i, j, 1, hi, hj, by omega, rfl, Or.inl ⟨rfl, rfl, rfl⟩⟩⟩
    · obtain ⟨j', rfl⟩ : ∃ j', j = j' + 1 := ⟨j - 1, by omega⟩
      exact ⟨2 * (i * n + j') + 1, 1, _, _, rect_dirEdge.mpr ⟨i, j' + 1, 0, hi, hj, ht, rfl, Or.inr (Or.inl ⟨rfl, rfl, rfl⟩)⟩,
        rect_dirEdge.mpr ⟨i, j', 1, hi, by omega, by omega, rfl, Or.inr (Or.inl ⟨rfl, rfl, rfl⟩)⟩⟩
    · exact ⟨2 * ((i + 1) * n + j) + 1, 2, _, _, rect_dirEdge.mpr ⟨i, j, 0, hi, hj, ht, rfl, Or.inr (Or.inr ⟨rfl, rfl, rfl⟩)⟩,
        rect_dirEdge.mpr ⟨i + 1, j, 1, by omega, hj, by omega, rfl, Or.inr (Or.inr ⟨rfl, rfl, rfl⟩)⟩⟩
    · exact ⟨2 * (i * n + j) + 0, 0, _, _, rect_dirEdge.mpr ⟨i, j, 1, hi, hj, ht, rfl, Or.inl ⟨rfl, rfl, rfl⟩⟩,
        rect_dirEdge.mpr ⟨i, j, 0, hi, hj, by omega, rfl, Or.inl ⟨rfl, rfl, rfl⟩⟩⟩
    · exact ⟨2 * (i * n + (j + 1)) + 0, 1, _, _, rect_dirEdge.mpr ⟨i, j, 1, hi, hj, ht, rfl, Or.inr (Or.inl ⟨rfl, rfl, rfl⟩)⟩,
        rect_dirEdge.mpr ⟨i, j + 1, 0, hi, by omega, by omega, rfl, Or.inr (Or.inl ⟨rfl, rfl, rfl⟩)⟩⟩
    · obtain ⟨i', rfl⟩ : ∃ i', i = i' + 1 := ⟨i - 1, by omega⟩
      exact ⟨2 * (i' * n + j) + 0, 2, _, _, rect_dirEdge.mpr ⟨i' + 1, j, 1, hi, hj, ht, rfl, Or.inr (Or.inr ⟨rfl, rfl, rfl⟩)⟩,
        rect_dirEdge.mpr ⟨i', j, 0, by omega, hj, by omega, rfl, Or.inr (Or.inr ⟨rfl, rfl, rfl⟩)⟩⟩
  · rintro hr ⟨l, e', a, b, h, h'⟩
    obtain ⟨i1, j1, t1, hi1, hj1, ht1, hk, g⟩ := rect_dirEdge.mp h
    obtain ⟨rfl, rfl, rfl⟩ := rect_num_inj hj hj1 ht ht1 hk
    obtain ⟨i', j', t', hi', hj', ht', -, g'⟩ := rect_dirEdge.mp h'
    unfold RimR at hr
    rcases g with ⟨rfl, ha, hb⟩ | ⟨rfl, ha, hb⟩ | ⟨rfl, ha, hb⟩ <;> rcases g' with ⟨rfl, hb', ha'⟩ | ⟨rfl, hb', ha'⟩ | ⟨rfl, hb', ha'⟩ <;>
    · obtain ⟨a1, a2⟩ := cor_inj hj hj' (ha.symm.trans ha')
      obtain ⟨b1, b2⟩ := cor_inj hj hj' (hb.symm.trans hb')
      interval_cases t <;> interval_cases t' <;> simp only [ra, rb, rc, qx, qy] at a1 a2 b1 b2 <;> omega

/-! ## Coordinates -/

variable {K : Type*} [Field K] [LinearOrder K] [IsStrictOrderedRing K]

def rectPts (m n : ℕ) (d1 d2 : K) (o : K × K) : List (Pt K) := (loop2 (m + 1) (n + 1)).map (gridPt d1 d2 o)

theorem rectPts_length (m n : ℕ) (d1 d2 : K) (o : K × K) : (rectPts m n d1 d2 o).length = (m + 1) * (n + 1) := by
  simp [rectPts, loop2_length]

theorem rectPts_cor (m n i j q : ℕ) (d1 d2 : K) (o : K × K) (hi : i < m) (hj : j < n) :
    (rectPts m n d1 d2 o)[cor n i j q]? = some (gridPt d1 d2 o (i + qx q, j + qy q)) :=
  map_grid_get m n _ _ d1 d2 o (by have := qx_le q; omega) (by have := qy_le q; omega)

theorem rect_isTri {m n k : ℕ} {d1 d2 : K} {o : K × K} {A B C : Pt K} : IsTri (rectPts m n d1 d2 o) (rectElems m n) k A B C ↔
    ∃ i j t, i < m ∧ j < n ∧ t < 2 ∧ k = 2 * (i * n + j) + t ∧ A = gridPt d1 d2 o (i + qx (ra t), j + qy (ra t)) ∧
      B = gridPt d1 d2 o (i + qx (rb t), j + qy (rb t)) ∧ C = gridPt d1 d2 o (i + qx (rc t), j + qy (rc t)) := by
  constructor
  · rintro ⟨a, b, c, h, ha, hb, hc⟩
    obtain ⟨i, j, t, hi, hj, ht, rfl, hT⟩ := rect_elem.mp h
    simp only [rtri, Prod.mk.injEq] at hT
    obtain ⟨rfl, rfl, rfl⟩ := hT
    rw [rectPts_cor m n _ _ _ d1 d2 o hi hj] at ha hb hc
    exact ⟨i, j, t, hi, hj, ht, rfl, (Option.some.inj ha).symm, (Option.some.inj hb).symm, (Option.some.inj hc).symm⟩
  · rintro ⟨i, j, t, hi, hj, ht, rfl, rfl, rfl, rfl⟩
    exact ⟨_, _, _, rectElems_get m n i j t hi hj ht, rectPts_cor m n _ _ _ d1 d2 o hi hj, rectPts_cor m n _ _ _ d1 d2 o hi hj,
      rectPts_cor m n _ _ _ d1 d2 o hi hj⟩

/-- The three edge functions of triangle `t` in the coordinates of its cell. -/
def g0 : ℕ → K → K → K
  | 0, s, _ => 1 - s
  | _, s, _ => s

def g1 : ℕ → K → K → K
  | 0, s, v => s - v
  | _, s, v => v - s

def g2 : ℕ → K → K → K
  | 0, _, v => v
  | _, _, v => 1 - v

theorem rect_orient (d1 d2 : K) (o : K × K) (i j t : ℕ) (ht : t < 2) (u v : K) :
    orient (gridPt d1 d2 o (i + qx (ra t), j + qy (ra t))) (gridPt d1 d2 o (i + qx (rb t), j + qy (rb t))) ⟨d1 * u + o.1, d2 * v + o.2⟩ =
      d1 * d2 * g0 t (u - i) (v - j) ∧
    orient (gridPt d1 d2 o (i + qx (rb t), j + qy (rb t))) (gridPt d1 d2 o (i + qx (rc t), j + qy (rc t))) ⟨d1 * u + o.1, d2 * v + o.2⟩ =
      d1 * d2 * g1 t (u - i) (v - j) ∧
    orient (gridPt d1 d2 o (i + qx (rc t), j + qy (rc t))) (gridPt d1 d2 o (i + qx (ra t), j + qy (ra t))) ⟨d1 * u + o.1, d2 * v + o.2⟩ =
      d1 * d2 * g2 t (u - i) (v - j) := by
  interval_cases t <;>
  · simp only [orient, gridPt, qx, qy, ra, rb, rc, g0, g1, g2, add_zero, Nat.cast_add, Nat.cast_one]
    refine ⟨?_, ?_, ?_⟩ <;> ring

theorem rect_area (d1 d2 : K) (o : K × K) (i j t : ℕ) (ht : t < 2) :
    orient (gridPt d1 d2 o (i + qx (ra t), j + qy (ra t))) (gridPt d1 d2 o (i + qx (rb t), j + qy (rb t)))
      (gridPt d1 d2 o (i + qx (rc t), j + qy (rc t))) = d1 * d2 := by
  interval_cases t <;>
  · simp only [orient, gridPt, qx, qy, ra, rb, rc, add_zero, Nat.cast_add, Nat.cast_one]
    ring

theorem rect_tiles (m n : ℕ) (hm : 0 < m) (hn : 0 < n) (d1 d2 : K) (o : K × K) (h1 : 0 < d1) (h2 : 0 < d2) :
    Tiles (rectPts m n d1 d2 o) (rectElems m n) o (d1 * m) (d2 * n) := by
  have hd : 0 < d1 * d2 := mul_pos h1 h2
  have hw : ∀ i j t u v, t < 2 → (Within (gridPt d1 d2 o (i + qx (ra t), j + qy (ra t))) (gridPt d1 d2 o (i + qx (rb t), j + qy (rb t)))
      (gridPt d1 d2 o (i + qx (rc t), j + qy (rc t)))
      ⟨d1 * u + o.1, d2 * v + o.2⟩ ↔ 0 ≤ g0 t (u - i) (v - j) ∧ 0 ≤ g1 t (u - i) (v - j) ∧ 0 ≤ g2 t (u - i) (v - j)) := by
    intro i j t u v ht
    obtain ⟨a, b, c⟩ := rect_orient d1 d2 o i j t ht u v
    unfold Within
    rw [a, b, c, mul_nonneg_iff_of_pos_left hd, mul_nonneg_iff_of_pos_left hd, mul_nonneg_iff_of_pos_left hd]
  have hs : ∀ i j t u v, t < 2 → (StrictlyWithin (gridPt d1 d2 o (i + qx (ra t), j + qy (ra t))) (gridPt d1 d2 o (i + qx (rb t), j + qy (rb t)))
      (gridPt d1 d2 o (i + qx (rc t), j + qy (rc t)))
      ⟨d1 * u + o.1, d2 * v + o.2⟩ ↔ 0 < g0 t (u - i) (v - j) ∧ 0 < g1 t (u - i) (v - j) ∧ 0 < g2 t (u - i) (v - j)) := by
    intro i j t u v ht
    obtain ⟨a, b, c⟩ := rect_orient d1 d2 o i j t ht u v
    unfold StrictlyWithin
    rw [a, b, c, mul_pos_iff_of_pos_left hd, mul_pos_iff_of_pos_left hd, mul_pos_iff_of_pos_left hd]
  refine ⟨fun P => ?_, ?_⟩
  · obtain ⟨u, v, rfl⟩ := grid_coords d1 d2 o h1 h2 P
    rw [inRect_iff m n d1 d2 o h1 h2]
    constructor
    · rintro ⟨a, b, c, d⟩
      obtain ⟨i, hi, i1, i2⟩ := exists_cell m hm u a b
      obtain ⟨j, hj, j1, j2⟩ := exists_cell n hn v c d
      have key : ∃ t < 2, 0 ≤ g0 t (u - i) (v - j) ∧ 0 ≤ g1 t (u - i) (v - j) ∧ 0 ≤ g2 t (u - i) (v - j) := by
        rcases le_total (u - i) (v - j) with e1 | e1
        · refine ⟨1, by omega, ?_, ?_, ?_⟩ <;> simp only [g0, g1, g2] <;> linarith
        · refine ⟨0, by omega, ?_, ?_, ?_⟩ <;> simp only [g0, g1, g2] <;> linarith
      obtain ⟨t, ht, hk⟩ := key
      exact ⟨_, _, _, _, rect_isTri.mpr ⟨i, j, t, hi, hj, ht, rfl, rfl, rfl, rfl⟩, (hw i j t u v ht).mpr hk⟩
    · rintro ⟨k, A, B, C, hT, hin⟩
      obtain ⟨i, j, t, hi, hj, ht, rfl, rfl, rfl, rfl⟩ := rect_isTri.mp hT
      obtain ⟨a, b, c⟩ := (hw i j t u v ht).mp hin
      have q1 : (i : K) + 1 ≤ m := by exact_mod_cast hi
      have q2 : (j : K) + 1 ≤ n := by exact_mod_cast hj
      have q3 : (0 : K) ≤ i := Nat.cast_nonneg i
      have q4 : (0 : K) ≤ j := Nat.cast_nonneg j
      interval_cases t <;> simp only [g0, g1, g2] at a b c <;> refine ⟨?_, ?_, ?_, ?_⟩ <;> linarith
  · intro k A B C l A' B' C' P hT hT' hin hin'
    obtain ⟨u, v, rfl⟩ := grid_coords d1 d2 o h1 h2 P
    obtain ⟨i, j, t, hi, hj, ht, rfl, rfl, rfl, rfl⟩ := rect_isTri.mp hT
    obtain ⟨i', j', t', hi', hj', ht', rfl, rfl, rfl, rfl⟩ := rect_isTri.mp hT'
    obtain ⟨a, b, c⟩ := (hs i j t u v ht).mp hin
    obtain ⟨a', b', c'⟩ := (hs i' j' t' u v ht').mp hin'
    have box : ∀ (i j t : ℕ), t < 2 → 0 < g0 t (u - i) (v - j) → 0 < g1 t (u - i) (v - j) → 0 < g2 t (u - i) (v - j) →
        (i : K) < u ∧ u < i + 1 ∧ (j : K) < v ∧ v < j + 1 := by
      intro i j t ht a b c
      interval_cases t <;> simp only [g0, g1, g2] at a b c <;> refine ⟨?_, ?_, ?_, ?_⟩ <;> linarith
    obtain ⟨x1, x2, x3, x4⟩ := box i j t ht a b c
    obtain ⟨y1, y2, y3, y4⟩ := box i' j' t' ht' a' b' c'
    have w1 : i < i' + 1 := by exact_mod_cast lt_trans x1 y2
    have w2 : i' < i + 1 := by exact_mod_cast lt_trans y1 x2
    have w3 : j < j' + 1 := by exact_mod_cast lt_trans x3 y4
    have w4 : j' < j + 1 := by exact_mod_cast lt_trans y3 x4
    obtain rfl : i = i' := by omega
    obtain rfl : j = j' := by omega
    have : t = t' := by
      interval_cases t <;> interval_cases t' <;> simp only [g0, g1, g2] at a b c a' b' c' <;> first | rfl | (exfalso; linarith)
    subst this
    rfl

def rectBdry (m n : ℕ) : List ((ℕ × ℕ) × String) := (loop2 m n).flatMap fun c => rectMarks m n (2 * (c.1 * n + c.2)) c

theorem mem_rectBdry (m n : ℕ) (k e : ℕ) (tag : String) : ((k, e), tag) ∈ rectBdry m n ↔ ∃ i j t, i < m ∧ j < n ∧ t < 2 ∧ k = 2 * (i * n + j) + t ∧
    ((t = 0 ∧ e = 2 ∧ i + 1 = m ∧ tag = "right") ∨ (t = 0 ∧ e = 1 ∧ j = 0 ∧ tag = "bottom") ∨ (t = 1 ∧ e = 2 ∧ i = 0 ∧ tag = "left") ∨
      (t = 1 ∧ e = 1 ∧ j + 1 = n ∧ tag = "top")) := by
  unfold rectBdry
  simp only [List.mem_flatMap, rectMarks, mem_mark, List.not_mem_nil, false_or, beq_iff_eq, Prod.mk.injEq]
  constructor
  · rintro ⟨⟨i, j⟩, hc, h⟩
    obtain ⟨hi, hj⟩ := (mem_loop2 m n _).mp hc
    rcases h with ((⟨a, ⟨rfl, rfl⟩, rfl⟩ | ⟨a, ⟨rfl, rfl⟩, rfl⟩) | ⟨a, ⟨rfl, rfl⟩, rfl⟩) | ⟨a, ⟨rfl, rfl⟩, rfl⟩
    · exact ⟨i, j, 0, hi, hj, by omega, rfl, Or.inl ⟨rfl, rfl, a, rfl⟩⟩
    · exact ⟨i, j, 0, hi, hj, by omega, rfl, Or.inr (Or.inl ⟨rfl, rfl, a, rfl⟩)⟩
    · exact ⟨i, j, 1, hi, hj, by omega, rfl, Or.inr (Or.inr (Or.inl ⟨rfl, rfl, a, rfl⟩))⟩
    · exact ⟨i, j, 1, hi, hj, by omega, rfl, Or.inr (Or.inr (Or.inr ⟨rfl, rfl, a, rfl⟩))⟩
  · rintro ⟨i, j, t, hi, hj, -, rfl, h⟩
    refine ⟨(i, j), (mem_loop2 m n _).mpr ⟨hi, hj⟩, ?_⟩
    rcases h with ⟨rfl, rfl, a, rfl⟩ | ⟨rfl, rfl, a, rfl⟩ | ⟨rfl, rfl, a, rfl⟩ | ⟨rfl, rfl, a, rfl⟩
    · exact Or.inl (Or.inl (Or.inl ⟨a, ⟨rfl, rfl⟩, rfl⟩))
    · exact Or.inl (Or.inl (Or.inr ⟨a, ⟨rfl, rfl⟩, rfl⟩))
    · exact Or.inl (Or.inr ⟨a, ⟨rfl, rfl⟩, rfl⟩)
    · exact Or.inr ⟨a, ⟨rfl, rfl⟩, rfl⟩

theorem rectMarks_keys (m n k : ℕ) (c : ℕ × ℕ) : ((rectMarks m n k c).map Prod.fst).Nodup := by
  unfold rectMarks mark
  cases (c.1 == 0) <;> cases (c.2 == 0) <;> cases (c.1 + 1 == m) <;> cases (c.2 + 1 == n) <;> simp

theorem rectBdry_keys (m n : ℕ) : ((rectBdry m n).map Prod.fst).Nodup := by
  refine flatMap_keys_nodup (r := 2) m n _ (fun c => rectMarks_keys m n _ c) ?_
  intro c x hx
  simp only [rectMarks, mem_mark, List.not_mem_nil, false_or] at hx
  rcases hx with ((⟨-, rfl⟩ | ⟨-, rfl⟩) | ⟨-, rfl⟩) | ⟨-, rfl⟩
  · exact ⟨0, by omega, rfl⟩
  · exact ⟨0, by omega, rfl⟩
  · exact ⟨1, by omega, rfl⟩
  · exact ⟨1, by omega, rfl⟩

theorem rect_tagged (m n : ℕ) (d1 d2 : K) (o : K × K) (h1 : 0 < d1) (h2 : 0 < d2) :
    Tagged (rectPts m n d1 d2 o) (rectElems m n) (rectBdry m n) o (d1 * m) (d2 * n) := by
  refine ⟨rectBdry_keys m n, ?_⟩
  intro k e tag
  rw [mem_rectBdry]
  constructor
  · rintro ⟨i, j, t, hi, hj, ht, rfl, h⟩
    have he : e < 3 := by rcases h with ⟨-, rfl, -⟩ | ⟨-, rfl, -⟩ | ⟨-, rfl, -⟩ | ⟨-, rfl, -⟩ <;> omega
    refine ⟨(rect_across hi hj ht he).mpr (by unfold RimR; tauto), ?_⟩
    rcases h with ⟨rfl, rfl, a, rfl⟩ | ⟨rfl, rfl, a, rfl⟩ | ⟨rfl, rfl, a, rfl⟩ | ⟨rfl, rfl, a, rfl⟩
    · refine ⟨_, _, _, _, rect_dirEdge.mpr ⟨i, j, 0, hi, hj, ht, rfl, Or.inr (Or.inr ⟨rfl, rfl, rfl⟩)⟩, rectPts_cor m n _ _ _ d1 d2 o hi hj,
        rectPts_cor m n _ _ _ d1 d2 o hi hj, ?_, ?_⟩ <;> rw [onSide_iff m n d1 d2 o h1 h2] <;> simp [ra, rb, qx, a]
    · refine ⟨_, _, _, _, rect_dirEdge.mpr ⟨i, j, 0, hi, hj, ht, rfl, Or.inr (Or.inl ⟨rfl, rfl, rfl⟩)⟩, rectPts_cor m n _ _ _ d1 d2 o hi hj,
        rectPts_cor m n _ _ _ d1 d2 o hi hj, ?_, ?_⟩ <;> rw [onSide_iff m n d1 d2 o h1 h2] <;> simp [ra, rc, qy, a]
    · refine ⟨_, _, _, _, rect_dirEdge.mpr ⟨i, j, 1, hi, hj, ht, rfl, Or.inr (Or.inr ⟨rfl, rfl, rfl⟩)⟩, rectPts_cor m n _ _ _ d1 d2 o hi hj,
        rectPts_cor m n _ _ _ d1 d2 o hi hj, ?_, ?_⟩ <;> rw [onSide_iff m n d1 d2 o h1 h2] <;> simp [ra, rb, qx, a]
    · refine ⟨_, _, _, _, rect_dirEdge.mpr ⟨i, j, 1, hi, hj, ht, rfl, Or.inr (Or.inl ⟨rfl, rfl, rfl⟩)⟩, rectPts_cor m n _ _ _ d1 d2 o hi hj,
        rectPts_cor m n _ _ _ d1 d2 o hi hj, ?_, ?_⟩ <;> rw [onSide_iff m n d1 d2 o h1 h2] <;> simp [ra, rc, qy, a]
  · rintro ⟨hno, a, b, A, B, hd, ha, hb, sa, sb⟩
    obtain ⟨i, j, t, hi, hj, ht, rfl, h⟩ := rect_dirEdge.mp hd
    have he : e < 3 := by rcases h with ⟨rfl, -⟩ | ⟨rfl, -⟩ | ⟨rfl, -⟩ <;> omega
    have hr := (rect_across hi hj ht he).mp hno
    refine ⟨i, j, t, hi, hj, ht, rfl, ?_⟩
    unfold RimR at hr
    rcases hr with ⟨rfl, rfl, hr⟩ | ⟨rfl, rfl, hr⟩ | ⟨rfl, rfl, hr⟩ | ⟨rfl, rfl, hr⟩ <;>
      rcases h with ⟨h0, rfl, rfl⟩ | ⟨h0, rfl, rfl⟩ | ⟨h0, rfl, rfl⟩ <;> first | (exfalso; omega) | skip
    all_goals
      rw [rectPts_cor m n _ _ _ d1 d2 o hi hj] at ha hb
      obtain rfl := Option.some.inj ha
      obtain rfl := Option.some.inj hb
      rw [onSide_iff m n d1 d2 o h1 h2] at sa sb
      rcases sa with ⟨rfl, sa⟩ | ⟨rfl, sa⟩ | ⟨rfl, sa⟩ | ⟨rfl, sa⟩ <;> simp at sb <;> simp only [qx, qy, ra, rb, rc] at sa sb <;> first | omega | simp [hr]

theorem rect_points (m n : ℕ) (hm : 0 < m) (hn : 0 < n) (d1 d2 : K) (o : K × K) (h1 : 0 < d1) (h2 : 0 < d2) :
    PointsUsed (rectPts m n d1 d2 o) (rectElems m n) := by
  refine ⟨grid_nodup _ _ d1 d2 o h1 h2, ?_⟩
  intro v hv
  rw [rectPts_length] at hv
  obtain ⟨a, b, c⟩ := split_index hv
  have hv' : v = gnode n (v / (n + 1)) (v % (n + 1)) := c
  by_cases e1 : v / (n + 1) < m <;> by_cases e2 : v % (n + 1) < n
  · exact ⟨_, _, _, _, rectElems_get m n _ _ 0 e1 e2 (by omega), Or.inr (Or.inr hv')⟩
  · refine ⟨_, _, _, _, rectElems_get m n (v / (n + 1)) (n - 1) 1 e1 (by omega) (by omega), Or.inl ?_⟩
    simp only [cor, ra, qx, qy, add_zero]
    rw [show n - 1 + 1 = v % (n + 1) by omega]
    exact hv'
  · refine ⟨_, _, _, _, rectElems_get m n (m - 1) (v % (n + 1)) 0 (by omega) e2 (by omega), Or.inl ?_⟩
    simp only [cor, ra, qx, qy, add_zero]
    rw [show m - 1 + 1 = v / (n + 1) by omega]
    exact hv'
  · refine ⟨_, _, _, _, rectElems_get m n (m - 1) (n - 1) 0 (by omega) (by omega) (by omega), Or.inr (Or.inl ?_)⟩
    simp only [cor, rb, qx, qy]
    rw [show m - 1 + 1 = v / (n + 1) by omega, show n - 1 + 1 = v % (n + 1) by omega]
    exact hv'

theorem rect_uniform (m n : ℕ) (d1 d2 : K) (o : K × K) (h1 : 0 < d1) (h2 : 0 < d2) : Uniform (rectPts m n d1 d2 o) (rectElems m n) (d1 * d2 / 2) := by
  intro k hk
  rw [rectElems_length] at hk
  obtain ⟨i, j, t, hi, hj, ht, rfl⟩ := rect_split hk
  refine ⟨_, _, _, rect_isTri.mpr ⟨i, j, t, hi, hj, ht, rfl, rfl, rfl, rfl⟩, ?_, ?_⟩
  · rw [rect_area d1 d2 o i j t ht]
    exact mul_pos h1 h2
  · rw [rect_area d1 d2 o i j t ht]

end Verif.Factory
