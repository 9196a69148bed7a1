import Verif.Raster.Spec

set_option linter.unusedSectionVars false

namespace Verif.Raster

variable {K : Type*} [Field K] [LinearOrder K] [IsStrictOrderedRing K]

theorem search_spec (x : List K) (key : K) (lo hi : ℕ) (h : lo ≤ hi) :
    lo ≤ search x key lo hi ∧ search x key lo hi ≤ hi ∧ (search x key lo hi = lo ∨ x.getD (search x key lo hi - 1) 0 < key) ∧
    (search x key lo hi = hi ∨ key ≤ x.getD (search x key lo hi) 0) := by
  fun_induction search x key lo hi with
  | case1 lo hi h1 h2 ih =>
    obtain ⟨a, b, c, d⟩ := ih (by omega)
    refine ⟨by omega, b, Or.inr ?_, d⟩
    rcases c with c | c
    · rw [c, Nat.add_sub_cancel]; exact h2
    · exact c
  | case2 lo hi h1 h2 ih =>
    obtain ⟨a, b, c, d⟩ := ih (by omega)
    refine ⟨a, by omega, c, Or.inr ?_⟩
    rcases d with d | d
    · rw [d]; exact not_lt.mp h2
    · exact d
  | case3 lo hi h1 => exact ⟨le_rfl, by omega, Or.inl rfl, Or.inl (by omega)⟩

/-- The bracket found by the search, for any list. -/
theorem bracket {x : List K} (hx : x ≠ []) {p : K} (h0 : x.headD 0 ≤ p) (h1 : p ≤ x.getLastD 0) :
    searchsorted x p < x.length ∧ p ≤ x.getD (searchsorted x p) 0 ∧
    ((searchsorted x p = 0 ∧ p = x.getD 0 0) ∨ (0 < searchsorted x p ∧ x.getD (searchsorted x p - 1) 0 < p)) := by
  obtain ⟨-, b, c, d⟩ := search_spec x p 0 x.length (Nat.zero_le _)
  have hl : 0 < x.length := List.length_pos_iff.mpr hx
  have hlast : x.getLastD 0 = x.getD (x.length - 1) 0 := by
    rw [List.getLastD_eq_getLast?, List.getLast?_eq_getElem?, List.getD_eq_getElem?_getD]
  have hhead : x.headD 0 = x.getD 0 0 := by
    cases x with
    | nil => rfl
    | cons a l => rfl
  have hlt : searchsorted x p < x.length := by
    rcases Nat.lt_or_ge (searchsorted x p) x.length with h | h
    · exact h
    · have he : search x p 0 x.length = x.length := le_antisymm b h
      rcases c with c | c
      · omega
      · rw [he, ← hlast] at c
        exact absurd h1 (not_le.mpr c)
  have hp : p ≤ x.getD (searchsorted x p) 0 := by
    rcases d with d | d
    · exact absurd d (Nat.ne_of_lt hlt)
    · exact d
  refine ⟨hlt, hp, ?_⟩
  rcases Nat.eq_zero_or_pos (searchsorted x p) with h | h
  · left
    refine ⟨h, ?_⟩
    rw [h] at hp
    rw [hhead] at h0
    exact le_antisymm hp h0
  · right
    refine ⟨h, ?_⟩
    rcases c with c | c
    · exact absurd c h.ne'
    · exact c

theorem getD_of {x : List K} {i : ℕ} {a : K} (h : x[i]? = some a) : x.getD i 0 = a := by
  rw [List.getD_eq_getElem?_getD, h]; rfl

/-- Entries of increasing lists. -/
theorem lt_of_lt {x : List K} (hx : x.Pairwise (· < ·)) {i j : ℕ} (hij : i < j) (hj : j < x.length) : x.getD i 0 < x.getD j 0 := by
  rw [List.getD_eq_getElem _ _ hj, List.getD_eq_getElem _ _ (hij.trans hj)]
  exact List.pairwise_iff_getElem.mp hx i j (hij.trans hj) hj hij

theorem le_of_le {x : List K} (hx : x.Pairwise (· < ·)) {i j : ℕ} (hij : i ≤ j) (hj : j < x.length) : x.getD i 0 ≤ x.getD j 0 := by
  rcases hij.lt_or_eq with h | h
  · exact (lt_of_lt hx h hj).le
  · rw [h]

theorem inside_ends {x : List K} (hx : Lines x) {i : ℕ} {a b p : K} (h : In x i a b p) : x.headD 0 ≤ p ∧ p ≤ x.getLastD 0 := by
  obtain ⟨h0, h1, h2, h3⟩ := h
  obtain ⟨hl, hx⟩ := hx
  have hi : i + 1 < x.length := by
    rcases Nat.lt_or_ge (i + 1) x.length with h | h
    · exact h
    · rw [List.getElem?_eq_none h] at h1; cases h1
  have hlast : x.getLastD 0 = x.getD (x.length - 1) 0 := by
    rw [List.getLastD_eq_getLast?, List.getLast?_eq_getElem?, List.getD_eq_getElem?_getD]
  have hhead : x.headD 0 = x.getD 0 0 := by
    cases x with
    | nil => rfl
    | cons a l => rfl
  rw [hlast, hhead]
  constructor
  · refine le_trans ?_ h2
    rw [← getD_of h0]
    exact le_of_le hx (Nat.zero_le _) (by omega)
  · refine le_trans h3 ?_
    rw [← getD_of h1]
    exact le_of_le hx (by omega) (by omega)

/-- One axis: the search finds the interval, or, at its lower end, that end with full weight. -/
theorem axis {x : List K} (hx : Lines x) {i : ℕ} {a b p : K} (h : In x i a b p) :
    (searchsorted x p = i + 1 ∧ before x.length (searchsorted x p) = i ∧ weight x p = some ((p - a) / (b - a)) ∧ a < p) ∨
    (searchsorted x p = i ∧ weight x p = some 1 ∧ p = a) := by
  obtain ⟨e0, e1⟩ := inside_ends hx h
  obtain ⟨h0, h1, h2, h3⟩ := h
  obtain ⟨hl, hs⟩ := hx
  have hi : i + 1 < x.length := by
    rcases Nat.lt_or_ge (i + 1) x.length with h | h
    · exact h
    · rw [List.getElem?_eq_none h] at h1; cases h1
  have hne : x ≠ [] := by rintro rfl; simp at hl
  obtain ⟨b1, b2, b3⟩ := bracket hne e0 e1
  have ha := getD_of h0
  have hb := getD_of h1
  have hab : a < b := by rw [← ha, ← hb]; exact lt_of_lt hs (by omega) hi
  set r := searchsorted x p with hr
  have hle : r ≤ i + 1 := by
    by_contra hn
    rcases b3 with ⟨b3, -⟩ | ⟨-, b3⟩
    · omega
    · have : x.getD (i + 1) 0 ≤ x.getD (r - 1) 0 := le_of_le hs (by omega) (by omega)
      rw [hb] at this
      exact absurd (h3.trans this) (not_le.mpr b3)
  have hge : i ≤ r := by
    by_contra hn
    have : x.getD r 0 < x.getD i 0 := lt_of_lt hs (by omega) (by omega)
    rw [ha] at this
    exact absurd (b2.trans_lt this) (not_lt.mpr h2)
  rcases Nat.lt_or_ge i r with hc | hc
  · left
    have hre : r = i + 1 := by omega
    refine ⟨hre, ?_, ?_, ?_⟩
    · rw [hre]; rfl
    · unfold weight
      simp only
      rw [← hr, hre, hb, show before x.length (i + 1) = i from rfl, ha, if_neg (by rw [sub_eq_zero]; exact hab.ne')]
    · rcases b3 with ⟨b3, -⟩ | ⟨-, b3⟩
      · omega
      · rw [hre, Nat.add_sub_cancel, ha] at b3; exact b3
  · right
    have hre : r = i := by omega
    have hpa : p = a := le_antisymm (by rw [← ha, ← hre]; exact b2) h2
    refine ⟨hre, ?_, hpa⟩
    unfold weight
    simp only
    rw [← hr, hre, ha]
    have hneq : x.getD (before x.length i) 0 ≠ a := by
      rcases Nat.eq_zero_or_pos i with h | h
      · rw [h]
        have := lt_of_lt hs (i := 0) (j := x.length - 1) (by omega) (by omega)
        rw [h] at ha
        rw [ha] at this
        exact this.ne'
      · have hb' : before x.length i = i - 1 := by unfold before; rw [if_neg h.ne']
        rw [hb']
        have := lt_of_lt hs (i := i - 1) (j := i) (by omega) (by omega)
        rw [ha] at this
        exact this.ne
    rw [if_neg (by rw [sub_eq_zero]; exact hneq.symm), hpa]
    congr 1
    exact div_self (by rw [sub_ne_zero]; exact hneq.symm)

theorem entry_of {Z : List (List (Option K))} {i j : ℕ} {v : Option K} (h : Stored Z i j v) : entry Z i j = v := by
  obtain ⟨r, h1, h2⟩ := h
  unfold entry
  rw [List.getD_eq_getElem?_getD, List.getD_eq_getElem?_getD, h1]
  show r[j]?.getD none = v
  rw [h2]; rfl

theorem value_inside {x y : List K} (hx : Lines x) (hy : Lines y) (Z : List (List (Option K))) (mode : Mode) {i j : ℕ} {x0 x1 y0 y1 p q : K}
    (hi : In x i x0 x1 p) (hj : In y j y0 y1 q) : value x y Z mode (some p, some q) = inner x y Z mode p q := by
  obtain ⟨a0, a1⟩ := inside_ends hx hi
  obtain ⟨c0, c1⟩ := inside_ends hy hj
  unfold value
  rw [if_neg]
  unfold outside
  simp only [Bool.not_eq_true, Bool.or_eq_false_iff, decide_eq_false_iff_not, not_lt, gt_iff_lt]
  exact ⟨⟨⟨a0, c0⟩, a1⟩, c1⟩

theorem before_lt {n r : ℕ} (h : r < n) : before n r < n := by
  unfold before
  split_ifs <;> omega

end Verif.Raster
