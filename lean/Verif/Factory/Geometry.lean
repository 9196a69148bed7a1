import Verif.Factory.Lemmas
import Verif.Factory.Spec

/-! # Triangles of the cross mesh -/

namespace Verif.Factory

set_option linter.unusedSectionVars false

open Verif.Polygon (Pt)
open Verif.Mesh

/-! ## Corners of a cell, counter-clockwise -/

def qx : ℕ → ℕ
  | 1 => 1
  | 2 => 1
  | _ => 0

def qy : ℕ → ℕ
  | 2 => 1
  | 3 => 1
  | _ => 0

def prev : ℕ → ℕ
  | 0 => 3
  | 1 => 0
  | 2 => 1
  | _ => 2

theorem qx_le (t : ℕ) : qx t ≤ 1 := by unfold qx; split <;> omega

theorem qy_le (t : ℕ) : qy t ≤ 1 := by unfold qy; split <;> omega

theorem gnode_inj {n i j i' j' : ℕ} (hj : j ≤ n) (hj' : j' ≤ n) (h : gnode n i j = gnode n i' j') : i = i' ∧ j = j' :=
  pair_inj (n := n + 1) (by omega) (by omega) h

theorem gnode_lt {m n i j : ℕ} (hi : i ≤ m) (hj : j ≤ n) : gnode n i j < (m + 1) * (n + 1) := by
  unfold gnode
  have : i * (n + 1) ≤ m * (n + 1) := Nat.mul_le_mul_right _ hi
  have e : (m + 1) * (n + 1) = m * (n + 1) + (n + 1) := by ring
  omega

theorem gnode_ne_cnode {m n i j i' j' : ℕ} (hi : i ≤ m) (hj : j ≤ n) : gnode n i j ≠ cnode m n i' j' := by
  have := gnode_lt hi hj
  unfold cnode
  omega

theorem cnode_inj {m n i j i' j' : ℕ} (hj : j < n) (hj' : j' < n) (h : cnode m n i j = cnode m n i' j') : i = i' ∧ j = j' := by
  unfold cnode at h
  exact pair_inj hj hj' (by omega)

/-- Triangle `t` of cell `(i, j)`. -/
def ctri (m n i j t : ℕ) : ℕ × ℕ × ℕ := (gnode n (i + qx t) (j + qy t), cnode m n i j, gnode n (i + qx (prev t)) (j + qy (prev t)))

def crossElems (m n : ℕ) : List (ℕ × ℕ × ℕ) := (loop2 m n).flatMap fun c => cross4 n (cnode m n c.1 c.2) c

theorem crossElems_length (m n : ℕ) : (crossElems m n).length = 4 * (m * n) := by
  unfold crossElems
  rw [flatMap_length _ 4 (fun _ => rfl), loop2_length]

theorem crossElems_get (m n i j t : ℕ) (hi : i < m) (hj : j < n) (ht : t < 4) : (crossElems m n)[4 * (i * n + j) + t]? = some (ctri m n i j t) := by
  unfold crossElems
  rw [flatMap_get _ 4 (fun _ => rfl) _ _ _ ht, loop2_get m n i j hi hj]
  interval_cases t <;> rfl

/-- Every triangle number is that of a triangle in a cell. -/
theorem cross_split {m n k : ℕ} (h : k < 4 * (m * n)) : ∃ i j t, i < m ∧ j < n ∧ t < 4 ∧ k = 4 * (i * n + j) + t := by
  obtain ⟨h1, h2, h3⟩ := split_index (m := m) (n := n) (k := k / 4) (by omega)
  exact ⟨k / 4 / n, k / 4 % n, k % 4, h1, h2, by omega, by omega⟩

theorem cross_elem {m n k : ℕ} {T : ℕ × ℕ × ℕ} : (crossElems m n)[k]? = some T ↔
    ∃ i j t, i < m ∧ j < n ∧ t < 4 ∧ k = 4 * (i * n + j) + t ∧ T = ctri m n i j t := by
  constructor
  · intro h
    have hk := (List.getElem?_eq_some_iff.mp h).1
    rw [crossElems_length] at hk
    obtain ⟨i, j, t, hi, hj, ht, rfl⟩ := cross_split hk
    rw [crossElems_get m n i j t hi hj ht] at h
    exact ⟨i, j, t, hi, hj, ht, rfl, (Option.some.inj h).symm⟩
  · rintro ⟨i, j, t, hi, hj, ht, rfl, rfl⟩
    exact crossElems_get m n i j t hi hj ht

theorem cross_num_inj {n i j t i' j' t' : ℕ} (hj : j < n) (hj' : j' < n) (ht : t < 4) (ht' : t' < 4)
    (h : 4 * (i * n + j) + t = 4 * (i' * n + j') + t') : i = i' ∧ j = j' ∧ t = t' := by
  have h1 : t = t' := by omega
  obtain ⟨h2, h3⟩ := pair_inj (n := n) (i := i) (i' := i') hj hj' (by omega)
  exact ⟨h2, h3, h1⟩

theorem cross_dirEdge {m n k e a b : ℕ} : DirEdge (crossElems m n) k e a b ↔
    ∃ i j t, i < m ∧ j < n ∧ t < 4 ∧ k = 4 * (i * n + j) + t ∧
      ((e = 0 ∧ a = cnode m n i j ∧ b = gnode n (i + qx (prev t)) (j + qy (prev t))) ∨
        (e = 1 ∧ a = gnode n (i + qx (prev t)) (j + qy (prev t)) ∧ b = gnode n (i + qx t) (j + qy t)) ∨
        (e = 2 ∧ a = gnode n (i + qx t) (j + qy t) ∧ b = cnode m n i j)) := by
  unfold DirEdge
  constructor
  · rintro ⟨n0, n1, n2, h, hh⟩
    obtain ⟨i, j, t, hi, hj, ht, rfl, hT⟩ := cross_elem.mp h
    simp only [ctri, Prod.mk.injEq] at hT
    obtain ⟨rfl, rfl, rfl⟩ := hT
    exact ⟨i, j, t, hi, hj, ht, rfl, hh⟩
  · rintro ⟨i, j, t, hi, hj, ht, rfl, hh⟩
    exact ⟨_, _, _, crossElems_get m n i j t hi hj ht, hh⟩

/-- An outer edge of a cell determines the cell and the side. -/
theorem cross_outer {n i j t i' j' t' : ℕ} (hj : j < n) (hj' : j' < n) (ht : t < 4) (ht' : t' < 4)
    (h1 : gnode n (i + qx (prev t)) (j + qy (prev t)) = gnode n (i' + qx (prev t')) (j' + qy (prev t')))
    (h2 : gnode n (i + qx t) (j + qy t) = gnode n (i' + qx t') (j' + qy t')) : i = i' ∧ j = j' ∧ t = t' := by
  obtain ⟨a1, a2⟩ := gnode_inj (by have := qy_le (prev t); omega) (by have := qy_le (prev t'); omega) h1
  obtain ⟨b1, b2⟩ := gnode_inj (by have := qy_le t; omega) (by have := qy_le t'; omega) h2
  interval_cases t <;> interval_cases t' <;> simp only [qx, qy, prev] at a1 a2 b1 b2 <;> omega

theorem cross_conforming (m n : ℕ) : Conforming (crossElems m n) := by
  intro k e k' e' a b h h'
  obtain ⟨i, j, t, hi, hj, ht, rfl, g⟩ := cross_dirEdge.mp h
  obtain ⟨i', j', t', hi', hj', ht', rfl, g'⟩ := cross_dirEdge.mp h'
  have l1 := qx_le t
  have l2 := qy_le t
  have l3 := qx_le (prev t)
  have l4 := qy_le (prev t)
  have l1' := qx_le t'
  have l2' := qy_le t'
  have l3' := qx_le (prev t')
  have l4' := qy_le (prev t')
  rcases g with ⟨rfl, ha, hb⟩ | ⟨rfl, ha, hb⟩ | ⟨rfl, ha, hb⟩ <;> rcases g' with ⟨rfl, ha', hb'⟩ | ⟨rfl, ha', hb'⟩ | ⟨rfl, ha', hb'⟩
  · obtain ⟨rfl, rfl⟩ := cnode_inj hj hj' (ha.symm.trans ha')
    obtain ⟨c1, c2⟩ := gnode_inj (by omega) (by omega) (hb.symm.trans hb')
    have : t = t' := by
      interval_cases t <;> interval_cases t' <;> simp only [qx, qy, prev] at c1 c2 <;> omega
    subst this
    exact ⟨rfl, rfl⟩
  · exact absurd (ha'.symm.trans ha) (gnode_ne_cnode (by omega) (by omega))
  · exact absurd (ha'.symm.trans ha) (gnode_ne_cnode (by omega) (by omega))
  · exact absurd (ha.symm.trans ha') (gnode_ne_cnode (by omega) (by omega))
  · obtain ⟨rfl, rfl, rfl⟩ := cross_outer hj hj' ht ht' (ha.symm.trans ha') (hb.symm.trans hb')
    exact ⟨rfl, rfl⟩
  · exact absurd (hb.symm.trans hb') (gnode_ne_cnode (by omega) (by omega))
  · exact absurd (ha.symm.trans ha') (gnode_ne_cnode (by omega) (by omega))
  · exact absurd (hb'.symm.trans hb) (gnode_ne_cnode (by omega) (by omega))
  · obtain ⟨rfl, rfl⟩ := cnode_inj hj hj' (hb.symm.trans hb')
    obtain ⟨c1, c2⟩ := gnode_inj (by omega) (by omega) (ha.symm.trans ha')
    have : t = t' := by
      interval_cases t <;> interval_cases t' <;> simp only [qx, qy] at c1 c2 <;> omega
    subst this
    exact ⟨rfl, rfl⟩

/-- Triangle `t` of cell `(i, j)` has its outer edge on the border of the rectangle. -/
def Rim (m n i j t : ℕ) : Prop := (t = 0 ∧ i = 0) ∨ (t = 1 ∧ j = 0) ∨ (t = 2 ∧ i + 1 = m) ∨ (t = 3 ∧ j + 1 = n)

theorem prev_lt {t : ℕ} (ht : t < 4) : prev t < 4 := by interval_cases t <;> decide

theorem cross_across {m n i j t e : ℕ} (hi : i < m) (hj : j < n) (ht : t < 4) (he : e < 3) :
    (¬ ∃ l e', Across (crossElems m n) (4 * (i * n + j) + t) e l e') ↔ e = 1 ∧ Rim m n i j t := by
  constructor
  · intro h
    have h0 : e = 1 := by
      by_contra hne
      have : e = 0 ∨ e = 2 := by omega
      rcases this with rfl | rfl
      · exact h ⟨4 * (i * n + j) + prev t, 2, _, _, cross_dirEdge.mpr ⟨i, j, t, hi, hj, ht, rfl, Or.inl ⟨rfl, rfl, rfl⟩⟩,
          cross_dirEdge.mpr ⟨i, j, prev t, hi, hj, prev_lt ht, rfl, Or.inr (Or.inr ⟨rfl, rfl, rfl⟩)⟩⟩
      · have e1 : ∃ t', t' < 4 ∧ prev t' = t := by
          interval_cases t
          · exact ⟨1, by omega, rfl⟩
          · exact ⟨2, by omega, rfl⟩
          · exact ⟨3, by omega, rfl⟩
          · exact ⟨0, by omega, rfl⟩
        obtain ⟨t', ht', rfl⟩ := e1
        exact h ⟨4 * (i * n + j) + t', 0, _, _, cross_dirEdge.mpr ⟨i, j, prev t', hi, hj, ht, rfl, Or.inr (Or.inr ⟨rfl, rfl, rfl⟩)⟩,
          cross_dirEdge.mpr ⟨i, j, t', hi, hj, ht', rfl, Or.inl ⟨rfl, rfl, rfl⟩⟩⟩
    subst h0
    refine ⟨rfl, ?_⟩
    by_contra hr
    apply h
    unfold Rim at hr
    have hd := fun t ht => cross_dirEdge.mpr ⟨i, j, t, hi, hj, ht, rfl, Or.inr (Or.inl ⟨rfl, rfl, rfl⟩)⟩
    interval_cases t
    · obtain ⟨i', rfl⟩ : ∃ i', i = i' + 1 := ⟨i - 1, by omega⟩
      exact ⟨4 * (i' * n + j) + 2, 1, _, _, hd 0 (by omega),
        cross_dirEdge.mpr ⟨i', j, 2, by omega, hj, by omega, rfl, Or.inr (Or.inl ⟨rfl, rfl, rfl⟩)⟩⟩
    · obtain ⟨j', rfl⟩ : ∃ j', j = j' + 1 := ⟨j - 1, by omega⟩
      exact ⟨4 * (i * n + j') + 3, 1, _, _, hd 1 (by omega),
        cross_dirEdge.mpr ⟨i, j', 3, by omega, by omega, by omega, rfl, Or.inr (Or.inl ⟨rfl, rfl, rfl⟩)⟩⟩
    · exact ⟨4 * ((i + 1) * n + j) + 0, 1, _, _, hd 2 (by omega),
        cross_dirEdge.mpr ⟨i + 1, j, 0, by omega, by omega, by omega, rfl, Or.inr (Or.inl ⟨rfl, rfl, rfl⟩)⟩⟩
    · exact ⟨4 * (i * n + (j + 1)) + 1, 1, _, _, hd 3 (by omega),
        cross_dirEdge.mpr ⟨i, j + 1, 1, by omega, by omega, by omega, rfl, Or.inr (Or.inl ⟨rfl, rfl, rfl⟩)⟩⟩
  · rintro ⟨rfl, hr⟩ ⟨l, e', a, b, h, h'⟩
    obtain ⟨i1, j1, t1, hi1, hj1, ht1, hk, g⟩ := cross_dirEdge.mp h
    obtain ⟨rfl, rfl, rfl⟩ := cross_num_inj hj hj1 ht ht1 hk
    obtain ⟨i', j', t', hi', hj', ht', -, g'⟩ := cross_dirEdge.mp h'
    have l1 := qx_le t
    have l2 := qy_le t
    have l3 := qx_le (prev t)
    have l4 := qy_le (prev t)
    have l2' := qy_le t'
    have l4' := qy_le (prev t')
    rcases g with ⟨h0, -, -⟩ | ⟨-, ha, hb⟩ | ⟨h0, -, -⟩
    · omega
    · rcases g' with ⟨-, hb', ha'⟩ | ⟨-, hb', ha'⟩ | ⟨-, hb', ha'⟩
      · exact absurd (hb.symm.trans hb') (gnode_ne_cnode (by omega) (by omega))
      · obtain ⟨a1, a2⟩ := gnode_inj (by omega) (by omega) (ha.symm.trans ha')
        obtain ⟨b1, b2⟩ := gnode_inj (by omega) (by omega) (hb.symm.trans hb')
        unfold Rim at hr
        interval_cases t <;> interval_cases t' <;> simp only [qx, qy, prev] at a1 a2 b1 b2 <;> omega
      · exact absurd (ha.symm.trans ha') (gnode_ne_cnode (by omega) (by omega))
    · omega

/-! ## Coordinates -/

variable {K : Type*} [Field K] [LinearOrder K] [IsStrictOrderedRing K]

theorem map_grid_get (m n i j : ℕ) (d1 d2 : K) (o : K × K) (hi : i ≤ m) (hj : j ≤ n) :
    ((loop2 (m + 1) (n + 1)).map (gridPt d1 d2 o))[gnode n i j]? = some (gridPt d1 d2 o (i, j)) := by
  rw [List.getElem?_map]
  unfold gnode
  rw [loop2_get (m + 1) (n + 1) i j (by omega) (by omega)]
  rfl

def crossPts (m n : ℕ) (d1 d2 : K) (o : K × K) : List (Pt K) :=
  (loop2 (m + 1) (n + 1)).map (gridPt d1 d2 o) ++ (loop2 m n).map (centre d1 d2 o)

theorem crossPts_length (m n : ℕ) (d1 d2 : K) (o : K × K) : (crossPts m n d1 d2 o).length = (m + 1) * (n + 1) + m * n := by
  simp [crossPts, loop2_length]

theorem crossPts_grid (m n i j : ℕ) (d1 d2 : K) (o : K × K) (hi : i ≤ m) (hj : j ≤ n) :
    (crossPts m n d1 d2 o)[gnode n i j]? = some (gridPt d1 d2 o (i, j)) := by
  unfold crossPts
  rw [List.getElem?_append_left (by rw [List.length_map, loop2_length]; exact gnode_lt hi hj), map_grid_get m n i j d1 d2 o hi hj]

theorem crossPts_centre (m n i j : ℕ) (d1 d2 : K) (o : K × K) (hi : i < m) (hj : j < n) :
    (crossPts m n d1 d2 o)[cnode m n i j]? = some (centre d1 d2 o (i, j)) := by
  unfold crossPts cnode
  rw [List.getElem?_append_right (by rw [List.length_map, loop2_length]; omega), List.length_map, loop2_length, Nat.add_sub_cancel_left, List.getElem?_map,
    loop2_get m n i j hi hj]
  rfl

theorem cross_isTri {m n k : ℕ} {d1 d2 : K} {o : K × K} {A B C : Pt K} : IsTri (crossPts m n d1 d2 o) (crossElems m n) k A B C ↔
    ∃ i j t, i < m ∧ j < n ∧ t < 4 ∧ k = 4 * (i * n + j) + t ∧ A = gridPt d1 d2 o (i + qx t, j + qy t) ∧ B = centre d1 d2 o (i, j) ∧
      C = gridPt d1 d2 o (i + qx (prev t), j + qy (prev t)) := by
  constructor
  · rintro ⟨a, b, c, h, ha, hb, hc⟩
    obtain ⟨i, j, t, hi, hj, ht, rfl, hT⟩ := cross_elem.mp h
    simp only [ctri, Prod.mk.injEq] at hT
    obtain ⟨rfl, rfl, rfl⟩ := hT
    have l1 := qx_le t
    have l2 := qy_le t
    have l3 := qx_le (prev t)
    have l4 := qy_le (prev t)
    rw [crossPts_grid m n _ _ d1 d2 o (by omega) (by omega)] at ha hc
    rw [crossPts_centre m n _ _ d1 d2 o hi hj] at hb
    exact ⟨i, j, t, hi, hj, ht, rfl, (Option.some.inj ha).symm, (Option.some.inj hb).symm, (Option.some.inj hc).symm⟩
  · rintro ⟨i, j, t, hi, hj, ht, rfl, rfl, rfl, rfl⟩
    have l1 := qx_le t
    have l2 := qy_le t
    have l3 := qx_le (prev t)
    have l4 := qy_le (prev t)
    exact ⟨_, _, _, crossElems_get m n i j t hi hj ht, crossPts_grid m n _ _ d1 d2 o (by omega) (by omega), crossPts_centre m n _ _ d1 d2 o hi hj,
      crossPts_grid m n _ _ d1 d2 o (by omega) (by omega)⟩

/-- The three edge functions of triangle `t` in the coordinates of its cell. -/
def f0 : ℕ → K → K → K
  | 0, s, v => (v - s) / 2
  | 1, s, v => (1 - s - v) / 2
  | 2, s, v => (s - v) / 2
  | _, s, v => (s + v - 1) / 2

def f1 : ℕ → K → K → K
  | 0, s, v => (1 - s - v) / 2
  | 1, s, v => (s - v) / 2
  | 2, s, v => (s + v - 1) / 2
  | _, s, v => (v - s) / 2

def f2 : ℕ → K → K → K
  | 0, s, _ => s
  | 1, _, v => v
  | 2, s, _ => 1 - s
  | _, _, v => 1 - v

theorem cross_orient (d1 d2 : K) (o : K × K) (i j t : ℕ) (ht : t < 4) (u v : K) :
    orient (gridPt d1 d2 o (i + qx t, j + qy t)) (centre d1 d2 o (i, j)) ⟨d1 * u + o.1, d2 * v + o.2⟩ = d1 * d2 * f0 t (u - i) (v - j) ∧
    orient (centre d1 d2 o (i, j)) (gridPt d1 d2 o (i + qx (prev t), j + qy (prev t))) ⟨d1 * u + o.1, d2 * v + o.2⟩ = d1 * d2 * f1 t (u - i) (v - j) ∧
    orient (gridPt d1 d2 o (i + qx (prev t), j + qy (prev t))) (gridPt d1 d2 o (i + qx t, j + qy t)) ⟨d1 * u + o.1, d2 * v + o.2⟩ =
      d1 * d2 * f2 t (u - i) (v - j) := by
  interval_cases t <;>
  · simp only [orient, gridPt, centre, mean4, qx, qy, prev, f0, f1, f2, add_zero, Nat.cast_add, Nat.cast_one]
    refine ⟨?_, ?_, ?_⟩ <;> ring

theorem cross_area (d1 d2 : K) (o : K × K) (i j t : ℕ) (ht : t < 4) :
    orient (gridPt d1 d2 o (i + qx t, j + qy t)) (centre d1 d2 o (i, j)) (gridPt d1 d2 o (i + qx (prev t), j + qy (prev t))) = d1 * d2 / 2 := by
  interval_cases t <;>
  · simp only [orient, gridPt, centre, mean4, qx, qy, prev, add_zero, Nat.cast_add, Nat.cast_one]
    ring

/-- A number between 0 and `m` lies between two consecutive whole numbers. -/
theorem exists_cell (m : ℕ) (hm : 0 < m) (u : K) (h0 : 0 ≤ u) (h1 : u ≤ m) : ∃ i < m, (i : K) ≤ u ∧ u ≤ i + 1 := by
  induction m with
  | zero => omega
  | succ m ih =>
    rcases Nat.eq_zero_or_pos m with rfl | hp
    · exact ⟨0, by omega, by simpa using h0, by simpa using h1⟩
    · rcases le_total u (m : K) with h | h
      · obtain ⟨i, hi, h2⟩ := ih hp h
        exact ⟨i, by omega, h2⟩
      · exact ⟨m, by omega, h, by push_cast at h1; exact h1⟩

/-- The point in units of the grid. -/
theorem grid_coords (d1 d2 : K) (o : K × K) (h1 : 0 < d1) (h2 : 0 < d2) (P : Pt K) : ∃ u v, P = ⟨d1 * u + o.1, d2 * v + o.2⟩ := by
  refine ⟨(P.x - o.1) / d1, (P.y - o.2) / d2, ?_⟩
  rw [mul_div_cancel₀ _ h1.ne', mul_div_cancel₀ _ h2.ne']
  cases P
  simp

theorem inRect_iff (m n : ℕ) (d1 d2 : K) (o : K × K) (h1 : 0 < d1) (h2 : 0 < d2) (u v : K) :
    InRect o (d1 * m) (d2 * n) ⟨d1 * u + o.1, d2 * v + o.2⟩ ↔ 0 ≤ u ∧ u ≤ m ∧ 0 ≤ v ∧ v ≤ n := by
  unfold InRect
  simp only
  have e1 : o.1 ≤ d1 * u + o.1 ↔ 0 ≤ u := by rw [le_add_iff_nonneg_left]; exact mul_nonneg_iff_of_pos_left h1
  have e2 : d1 * u + o.1 ≤ o.1 + d1 * m ↔ u ≤ m := by rw [add_comm, add_le_add_iff_left]; exact mul_le_mul_iff_right₀ h1
  have e3 : o.2 ≤ d2 * v + o.2 ↔ 0 ≤ v := by rw [le_add_iff_nonneg_left]; exact mul_nonneg_iff_of_pos_left h2
  have e4 : d2 * v + o.2 ≤ o.2 + d2 * n ↔ v ≤ n := by rw [add_comm, add_le_add_iff_left]; exact mul_le_mul_iff_right₀ h2
  rw [e1, e2, e3, e4]

theorem cross_tiles (m n : ℕ) (hm : 0 < m) (hn : 0 < n) (d1 d2 : K) (o : K × K) (h1 : 0 < d1) (h2 : 0 < d2) :
    Tiles (crossPts m n d1 d2 o) (crossElems m n) o (d1 * m) (d2 * n) := by
  have hd : 0 < d1 * d2 := mul_pos h1 h2
  have hw : ∀ i j t u v, t < 4 → (Within (gridPt d1 d2 o (i + qx t, j + qy t)) (centre d1 d2 o (i, j)) (gridPt d1 d2 o (i + qx (prev t), j + qy (prev t)))
      ⟨d1 * u + o.1, d2 * v + o.2⟩ ↔ 0 ≤ f0 t (u - i) (v - j) ∧ 0 ≤ f1 t (u - i) (v - j) ∧ 0 ≤ f2 t (u - i) (v - j)) := by
    intro i j t u v ht
    obtain ⟨a, b, c⟩ := cross_orient d1 d2 o i j t ht u v
    unfold Within
    rw [a, b, c, mul_nonneg_iff_of_pos_left hd, mul_nonneg_iff_of_pos_left hd, mul_nonneg_iff_of_pos_left hd]
  have hs : ∀ i j t u v, t < 4 → (StrictlyWithin (gridPt d1 d2 o (i + qx t, j + qy t)) (centre d1 d2 o (i, j))
      (gridPt d1 d2 o (i + qx (prev t), j + qy (prev t)))
      ⟨d1 * u + o.1, d2 * v + o.2⟩ ↔ 0 < f0 t (u - i) (v - j) ∧ 0 < f1 t (u - i) (v - j) ∧ 0 < f2 t (u - i) (v - j)) := by
    intro i j t u v ht
    obtain ⟨a, b, c⟩ := cross_orient d1 d2 o i j t ht u v
    unfold StrictlyWithin
    rw [a, b, c, mul_pos_iff_of_pos_left hd, mul_pos_iff_of_pos_left hd, mul_pos_iff_of_pos_left hd]
  refine ⟨fun P => ?_, ?_⟩
  · obtain ⟨u, v, rfl⟩ := grid_coords d1 d2 o h1 h2 P
    rw [inRect_iff m n d1 d2 o h1 h2]
    constructor
    · rintro ⟨a, b, c, d⟩
      obtain ⟨i, hi, i1, i2⟩ := exists_cell m hm u a b
      obtain ⟨j, hj, j1, j2⟩ := exists_cell n hn v c d
      have key : ∃ t < 4, 0 ≤ f0 t (u - i) (v - j) ∧ 0 ≤ f1 t (u - i) (v - j) ∧ 0 ≤ f2 t (u - i) (v - j) := by
        rcases le_total (u - i) (v - j) with e1 | e1 <;> rcases le_total (u - i + (v - j)) 1 with e2 | e2
        · refine ⟨0, by omega, ?_, ?_, ?_⟩ <;> simp only [f0, f1, f2] <;> linarith
        · refine ⟨3, by omega, ?_, ?_, ?_⟩ <;> simp only [f0, f1, f2] <;> linarith
        · refine ⟨1, by omega, ?_, ?_, ?_⟩ <;> simp only [f0, f1, f2] <;> linarith
        · refine ⟨2, by omega, ?_, ?_, ?_⟩ <;> simp only [f0, f1, f2] <;> linarith
      obtain ⟨t, ht, hk⟩ := key
      exact ⟨_, _, _, _, cross_isTri.mpr ⟨i, j, t, hi, hj, ht, rfl, rfl, rfl, rfl⟩, (hw i j t u v ht).mpr hk⟩
    · rintro ⟨k, A, B, C, hT, hin⟩
      obtain ⟨i, j, t, hi, hj, ht, rfl, rfl, rfl, rfl⟩ := cross_isTri.mp hT
      obtain ⟨a, b, c⟩ := (hw i j t u v ht).mp hin
      have q1 : (i : K) + 1 ≤ m := by exact_mod_cast hi
      have q2 : (j : K) + 1 ≤ n := by exact_mod_cast hj
      have q3 : (0 : K) ≤ i := Nat.cast_nonneg i
      have q4 : (0 : K) ≤ j := Nat.cast_nonneg j
      interval_cases t <;> simp only [f0, f1, f2] at a b c <;> refine ⟨?_, ?_, ?_, ?_⟩ <;> linarith
  · intro k A B C l A' B' C' P hT hT' hin hin'
    obtain ⟨u, v, rfl⟩ := grid_coords d1 d2 o h1 h2 P
    obtain ⟨i, j, t, hi, hj, ht, rfl, rfl, rfl, rfl⟩ := cross_isTri.mp hT
    obtain ⟨i', j', t', hi', hj', ht', rfl, rfl, rfl, rfl⟩ := cross_isTri.mp hT'
    obtain ⟨a, b, c⟩ := (hs i j t u v ht).mp hin
    obtain ⟨a', b', c'⟩ := (hs i' j' t' u v ht').mp hin'
    have box : ∀ (i j t : ℕ), t < 4 → 0 < f0 t (u - i) (v - j) → 0 < f1 t (u - i) (v - j) → 0 < f2 t (u - i) (v - j) →
        (i : K) < u ∧ u < i + 1 ∧ (j : K) < v ∧ v < j + 1 := by
      intro i j t ht a b c
      interval_cases t <;> simp only [f0, f1, f2] at a b c <;> refine ⟨?_, ?_, ?_, ?_⟩ <;> linarith
    obtain ⟨x1, x2, x3, x4⟩ := box i j t ht a b c
    obtain ⟨y1, y2, y3, y4⟩ := box i' j' t' ht' a' b' c'
    have w1 : i < i' + 1 := by exact_mod_cast lt_trans x1 y2
    have w2 : i' < i + 1 := by exact_mod_cast lt_trans y1 x2
    have w3 : j < j' + 1 := by exact_mod_cast lt_trans x3 y4
    have w4 : j' < j + 1 := by exact_mod_cast lt_trans y3 x4
    obtain rfl : i = i' := by omega
    obtain rfl : j = j' := by omega
    have : t = t' := by
      interval_cases t <;> interval_cases t' <;> simp only [f0, f1, f2] at a b c a' b' c' <;> first | rfl | (exfalso; linarith)
    subst this
    rfl

/-! ## Sides -/

theorem side_left (d1 d2 : K) (o : K × K) (h1 : 0 < d1) (i j : ℕ) : (gridPt d1 d2 o (i, j)).x = o.1 ↔ i = 0 := by
  simp [gridPt, h1.ne']

theorem side_right (m : ℕ) (d1 d2 : K) (o : K × K) (h1 : 0 < d1) (i j : ℕ) : (gridPt d1 d2 o (i, j)).x = o.1 + d1 * m ↔ i = m := by
  simp only [gridPt]
  rw [add_comm, add_right_inj, mul_right_inj' h1.ne', Nat.cast_inj]

theorem side_bottom (d1 d2 : K) (o : K × K) (h2 : 0 < d2) (i j : ℕ) : (gridPt d1 d2 o (i, j)).y = o.2 ↔ j = 0 := by
  simp [gridPt, h2.ne']

theorem side_top (n : ℕ) (d1 d2 : K) (o : K × K) (h2 : 0 < d2) (i j : ℕ) : (gridPt d1 d2 o (i, j)).y = o.2 + d2 * n ↔ j = n := by
  simp only [gridPt]
  rw [add_comm, add_right_inj, mul_right_inj' h2.ne', Nat.cast_inj]

theorem onSide_iff (m n : ℕ) (d1 d2 : K) (o : K × K) (h1 : 0 < d1) (h2 : 0 < d2) (tag : String) (i j : ℕ) :
    OnSide o (d1 * m) (d2 * n) tag (gridPt d1 d2 o (i, j)) ↔
      (tag = "left" ∧ i = 0) ∨ (tag = "right" ∧ i = m) ∨ (tag = "bottom" ∧ j = 0) ∨ (tag = "top" ∧ j = n) := by
  unfold OnSide
  rw [side_left d1 d2 o h1, side_right m d1 d2 o h1, side_bottom d1 d2 o h2, side_top n d1 d2 o h2]

theorem mem_mark (b : List ((ℕ × ℕ) × String)) (c : Bool) (k e : ℕ) (t : String) (x : (ℕ × ℕ) × String) :
    x ∈ mark b c k e t ↔ x ∈ b ∨ (c = true ∧ x = ((k, e), t)) := by
  unfold mark
  cases c <;> simp

def crossBdry (m n : ℕ) : List ((ℕ × ℕ) × String) := (loop2 m n).flatMap fun c => crossMarks m n (4 * (c.1 * n + c.2)) c

theorem mem_crossBdry (m n : ℕ) (k e : ℕ) (tag : String) : ((k, e), tag) ∈ crossBdry m n ↔ ∃ i j t, i < m ∧ j < n ∧ t < 4 ∧ k = 4 * (i * n + j) + t ∧ e = 1 ∧
    ((t = 0 ∧ i = 0 ∧ tag = "left") ∨ (t = 1 ∧ j = 0 ∧ tag = "bottom") ∨ (t = 2 ∧ i + 1 = m ∧ tag = "right") ∨ (t = 3 ∧ j + 1 = n ∧ tag = "top")) := by
  unfold crossBdry
  simp only [List.mem_flatMap, crossMarks, mem_mark, List.not_mem_nil, false_or, beq_iff_eq, Prod.mk.injEq]
  constructor
  · rintro ⟨⟨i, j⟩, hc, h⟩
    obtain ⟨hi, hj⟩ := (mem_loop2 m n _).mp hc
    rcases h with ((⟨a, ⟨rfl, rfl⟩, rfl⟩ | ⟨a, ⟨rfl, rfl⟩, rfl⟩) | ⟨a, ⟨rfl, rfl⟩, rfl⟩) | ⟨a, ⟨rfl, rfl⟩, rfl⟩
    · exact ⟨i, j, 0, hi, hj, by omega, rfl, rfl, Or.inl ⟨rfl, a, rfl⟩⟩
    · exact ⟨i, j, 1, hi, hj, by omega, rfl, rfl, Or.inr (Or.inl ⟨rfl, a, rfl⟩)⟩
    · exact ⟨i, j, 2, hi, hj, by omega, rfl, rfl, Or.inr (Or.inr (Or.inl ⟨rfl, a, rfl⟩))⟩
    · exact ⟨i, j, 3, hi, hj, by omega, rfl, rfl, Or.inr (Or.inr (Or.inr ⟨rfl, a, rfl⟩))⟩
  · rintro ⟨i, j, t, hi, hj, -, rfl, rfl, h⟩
    refine ⟨(i, j), (mem_loop2 m n _).mpr ⟨hi, hj⟩, ?_⟩
    rcases h with ⟨rfl, a, rfl⟩ | ⟨rfl, a, rfl⟩ | ⟨rfl, a, rfl⟩ | ⟨rfl, a, rfl⟩
    · exact Or.inl (Or.inl (Or.inl ⟨a, ⟨rfl, rfl⟩, rfl⟩))
    · exact Or.inl (Or.inl (Or.inr ⟨a, ⟨rfl, rfl⟩, rfl⟩))
    · exact Or.inl (Or.inr ⟨a, ⟨rfl, rfl⟩, rfl⟩)
    · exact Or.inr ⟨a, ⟨rfl, rfl⟩, rfl⟩

/-- Keys of marks, in a form with unique keys per cell. -/
theorem flatMap_keys_nodup {r : ℕ} (m n : ℕ) (f : ℕ × ℕ → List ((ℕ × ℕ) × String)) (h1 : ∀ c, ((f c).map Prod.fst).Nodup)
    (h2 : ∀ c, ∀ x ∈ f c, ∃ t < r, x.1.1 = r * (c.1 * n + c.2) + t) : (((loop2 m n).flatMap f).map Prod.fst).Nodup := by
  rw [List.map_flatMap, List.nodup_flatMap]
  refine ⟨fun c _ => h1 c, ?_⟩
  refine (loop2_nodup m n).pairwise_of_forall_ne ?_
  intro c hc c' hc' hne x hx hx'
  obtain ⟨-, hj⟩ := (mem_loop2 m n c).mp hc
  obtain ⟨-, hj'⟩ := (mem_loop2 m n c').mp hc'
  obtain ⟨y, hy, rfl⟩ := List.mem_map.mp hx
  obtain ⟨z, hz, hzy⟩ := List.mem_map.mp hx'
  obtain ⟨t, ht, e⟩ := h2 c y hy
  obtain ⟨t', ht', e'⟩ := h2 c' z hz
  rw [hzy, e] at e'
  obtain ⟨g1, -⟩ := pair_inj (n := r) (i := c.1 * n + c.2) (i' := c'.1 * n + c'.2) ht ht' (by rw [mul_comm _ r, mul_comm _ r]; exact e')
  obtain ⟨g3, g4⟩ := pair_inj hj hj' g1
  exact hne (Prod.ext g3 g4)

theorem crossMarks_keys (m n k : ℕ) (c : ℕ × ℕ) : ((crossMarks m n k c).map Prod.fst).Nodup := by
  unfold crossMarks mark
  cases (c.1 == 0) <;> cases (c.2 == 0) <;> cases (c.1 + 1 == m) <;> cases (c.2 + 1 == n) <;> simp

theorem crossBdry_keys (m n : ℕ) : ((crossBdry m n).map Prod.fst).Nodup := by
  refine flatMap_keys_nodup (r := 4) m n _ (fun c => crossMarks_keys m n _ c) ?_
  intro c x hx
  simp only [crossMarks, mem_mark, List.not_mem_nil, false_or] at hx
  rcases hx with ((⟨-, rfl⟩ | ⟨-, rfl⟩) | ⟨-, rfl⟩) | ⟨-, rfl⟩
  · exact ⟨0, by omega, rfl⟩
  · exact ⟨1, by omega, rfl⟩
  · exact ⟨2, by omega, rfl⟩
  · exact ⟨3, by omega, rfl⟩

theorem cross_tagged (m n : ℕ) (d1 d2 : K) (o : K × K) (h1 : 0 < d1) (h2 : 0 < d2) :
    Tagged (crossPts m n d1 d2 o) (crossElems m n) (crossBdry m n) o (d1 * m) (d2 * n) := by
  refine ⟨crossBdry_keys m n, ?_⟩
  intro k e tag
  rw [mem_crossBdry]
  constructor
  · rintro ⟨i, j, t, hi, hj, ht, rfl, rfl, h⟩
    have l1 := qx_le t
    have l2 := qy_le t
    have l3 := qx_le (prev t)
    have l4 := qy_le (prev t)
    refine ⟨(cross_across hi hj ht (by omega)).mpr ⟨rfl, ?_⟩, _, _, _, _, cross_dirEdge.mpr ⟨i, j, t, hi, hj, ht, rfl, Or.inr (Or.inl ⟨rfl, rfl, rfl⟩)⟩,
      crossPts_grid m n _ _ d1 d2 o (by omega) (by omega), crossPts_grid m n _ _ d1 d2 o (by omega) (by omega), ?_, ?_⟩
    · unfold Rim; tauto
    · rw [onSide_iff m n d1 d2 o h1 h2]
      rcases h with ⟨rfl, a, rfl⟩ | ⟨rfl, a, rfl⟩ | ⟨rfl, a, rfl⟩ | ⟨rfl, a, rfl⟩ <;> simp [qx, qy, prev, a]
    · rw [onSide_iff m n d1 d2 o h1 h2]
      rcases h with ⟨rfl, a, rfl⟩ | ⟨rfl, a, rfl⟩ | ⟨rfl, a, rfl⟩ | ⟨rfl, a, rfl⟩ <;> simp [qx, qy, a]
  · rintro ⟨hno, a, b, A, B, hd, ha, hb, sa, sb⟩
    obtain ⟨i, j, t, hi, hj, ht, rfl, h⟩ := cross_dirEdge.mp hd
    have he : e < 3 := by rcases h with ⟨rfl, -⟩ | ⟨rfl, -⟩ | ⟨rfl, -⟩ <;> omega
    obtain ⟨rfl, hr⟩ := (cross_across hi hj ht he).mp hno
    have l1 := qx_le t
    have l2 := qy_le t
    have l3 := qx_le (prev t)
    have l4 := qy_le (prev t)
    obtain ⟨rfl, rfl⟩ : a = gnode n (i + qx (prev t)) (j + qy (prev t)) ∧ b = gnode n (i + qx t) (j + qy t) := by
      rcases h with ⟨h0, -⟩ | ⟨-, h⟩ | ⟨h0, -⟩
      · omega
      · exact h
      · omega
    rw [crossPts_grid m n _ _ d1 d2 o (by omega) (by omega)] at ha hb
    obtain rfl := Option.some.inj ha
    obtain rfl := Option.some.inj hb
    rw [onSide_iff m n d1 d2 o h1 h2] at sa sb
    refine ⟨i, j, t, hi, hj, ht, rfl, rfl, ?_⟩
    unfold Rim at hr
    rcases sa with ⟨rfl, sa⟩ | ⟨rfl, sa⟩ | ⟨rfl, sa⟩ | ⟨rfl, sa⟩ <;> simp at sb <;>
      rcases hr with ⟨rfl, hr⟩ | ⟨rfl, hr⟩ | ⟨rfl, hr⟩ | ⟨rfl, hr⟩ <;> simp only [qx, qy, prev] at sa sb <;> first | omega | simp [hr]

/-! ## Points -/

theorem gridPt_inj (d1 d2 : K) (o : K × K) (h1 : 0 < d1) (h2 : 0 < d2) (c c' : ℕ × ℕ) (h : gridPt d1 d2 o c = gridPt d1 d2 o c') : c = c' := by
  simp only [gridPt, Pt.mk.injEq, add_left_inj, mul_eq_mul_left_iff, h1.ne', h2.ne', or_false, Nat.cast_inj] at h
  exact Prod.ext h.1 h.2

theorem centre_eq (d1 d2 : K) (o : K × K) (c : ℕ × ℕ) : centre d1 d2 o c = ⟨d1 * (c.1 + 1 / 2) + o.1, d2 * (c.2 + 1 / 2) + o.2⟩ := by
  simp only [centre, mean4, gridPt, Nat.cast_add, Nat.cast_one, Pt.mk.injEq]
  constructor <;> ring

theorem half_ne (a b : ℕ) : (a : K) ≠ b + 1 / 2 := by
  intro h
  have h2 : (2 * a : K) = 2 * b + 1 := by rw [h]; ring
  have : 2 * a = 2 * b + 1 := by exact_mod_cast h2
  omega

theorem grid_nodup (m n : ℕ) (d1 d2 : K) (o : K × K) (h1 : 0 < d1) (h2 : 0 < d2) : ((loop2 m n).map (gridPt d1 d2 o)).Nodup :=
  (loop2_nodup m n).map fun c c' h => gridPt_inj d1 d2 o h1 h2 c c' h

theorem cross_points (m n : ℕ) (hm : 0 < m) (hn : 0 < n) (d1 d2 : K) (o : K × K) (h1 : 0 < d1) (h2 : 0 < d2) :
    PointsUsed (crossPts m n d1 d2 o) (crossElems m n) := by
  constructor
  · unfold crossPts
    rw [List.nodup_append']
    refine ⟨grid_nodup _ _ d1 d2 o h1 h2, (loop2_nodup m n).map fun c c' h => ?_, ?_⟩
    · simp only [centre_eq, Pt.mk.injEq, add_left_inj, mul_eq_mul_left_iff, h1.ne', h2.ne', or_false, Nat.cast_inj] at h
      exact Prod.ext h.1 h.2
    · intro P hP hP'
      obtain ⟨c, -, rfl⟩ := List.mem_map.mp hP
      obtain ⟨c', -, h⟩ := List.mem_map.mp hP'
      simp only [centre_eq, gridPt, Pt.mk.injEq, add_left_inj, mul_eq_mul_left_iff, h1.ne', h2.ne', or_false] at h
      exact half_ne _ _ h.1.symm
  · intro v hv
    rw [crossPts_length] at hv
    by_cases hg : v < (m + 1) * (n + 1)
    · obtain ⟨a, b, c⟩ := split_index hg
      have hv' : v = gnode n (v / (n + 1)) (v % (n + 1)) := c
      by_cases e1 : v / (n + 1) < m <;> by_cases e2 : v % (n + 1) < n
      · exact ⟨_, _, _, _, crossElems_get m n _ _ 0 e1 e2 (by omega), Or.inl hv'⟩
      · refine ⟨_, _, _, _, crossElems_get m n (v / (n + 1)) (n - 1) 3 e1 (by omega) (by omega), Or.inl ?_⟩
        simp only [qx, qy, add_zero]
        rw [show n - 1 + 1 = v % (n + 1) by omega]
        exact hv'
      · refine ⟨_, _, _, _, crossElems_get m n (m - 1) (v % (n + 1)) 1 (by omega) e2 (by omega), Or.inl ?_⟩
        simp only [qx, qy, add_zero]
        rw [show m - 1 + 1 = v / (n + 1) by omega]
        exact hv'
      · refine ⟨_, _, _, _, crossElems_get m n (m - 1) (n - 1) 2 (by omega) (by omega) (by omega), Or.inl ?_⟩
        simp only [qx, qy]
        rw [show m - 1 + 1 = v / (n + 1) by omega, show n - 1 + 1 = v % (n + 1) by omega]
        exact hv'
    · obtain ⟨a, b, c⟩ := split_index (m := m) (n := n) (k := v - (m + 1) * (n + 1)) (by omega)
      refine ⟨_, _, _, _, crossElems_get m n _ _ 0 a b (by omega), Or.inr (Or.inl ?_)⟩
      unfold cnode
      omega

theorem cross_uniform (m n : ℕ) (d1 d2 : K) (o : K × K) (h1 : 0 < d1) (h2 : 0 < d2) : Uniform (crossPts m n d1 d2 o) (crossElems m n) (d1 * d2 / 4) := by
  intro k hk
  rw [crossElems_length] at hk
  obtain ⟨i, j, t, hi, hj, ht, rfl⟩ := cross_split hk
  refine ⟨_, _, _, cross_isTri.mpr ⟨i, j, t, hi, hj, ht, rfl, rfl, rfl, rfl⟩, ?_, ?_⟩
  · rw [cross_area d1 d2 o i j t ht]
    have := mul_pos h1 h2
    linarith
  · rw [cross_area d1 d2 o i j t ht]; ring

end Verif.Factory
