import Verif.Adv.Spec

namespace Verif.Adv

open Verif.Geom

variable {n b : ℕ}

/-- Each edge is at most half of the perimeter. -/
theorem len_le_half {V : Tri} (h : CCW V) (e : Fin 3) : 2 * len V e ≤ perimeter V := by
  obtain ⟨c1, c2⟩ := C77_closed h
  have hP : perimeter V = len V 0 + len V 1 + len V 2 := by
    unfold perimeter
    rw [Fin.sum_univ_three, ← len_eq, ← len_eq, ← len_eq]
  rw [Fin.sum_univ_three] at c1 c2
  have hn : ∀ f, (normal V f).1 ^ 2 + (normal V f).2 ^ 2 = 1 := by
    intro f
    have := (C77_normals h f).1
    unfold dot at this
    linarith [sq (normal V f).1, sq (normal V f).2]
  have hd : ∀ f g, -1 ≤ (normal V f).1 * (normal V g).1 + (normal V f).2 * (normal V g).2 := by
    intro f g
    have := hn f
    have := hn g
    nlinarith [sq_nonneg ((normal V f).1 + (normal V g).1), sq_nonneg ((normal V f).2 + (normal V g).2)]
  have hm : ∀ f g, -len V f ≤ len V f * ((normal V f).1 * (normal V g).1 + (normal V f).2 * (normal V g).2) := by
    intro f g
    have := mul_le_mul_of_nonneg_left (hd f g) (len_pos h f).le
    linarith
  have hz : ∀ g, len V 0 * ((normal V 0).1 * (normal V g).1 + (normal V 0).2 * (normal V g).2) +
      len V 1 * ((normal V 1).1 * (normal V g).1 + (normal V 1).2 * (normal V g).2) +
      len V 2 * ((normal V 2).1 * (normal V g).1 + (normal V 2).2 * (normal V g).2) = 0 := by
    intro g
    linear_combination (normal V g).1 * c1 + (normal V g).2 * c2
  have hs : ∀ g, len V g * ((normal V g).1 * (normal V g).1 + (normal V g).2 * (normal V g).2) = len V g := by
    intro g
    linear_combination len V g * hn g
  rw [hP]
  fin_cases e
  · have := hz 0; have := hs 0; have := hm 1 0; have := hm 2 0
    show 2 * len V 0 ≤ _
    linarith
  · have := hz 1; have := hs 1; have := hm 0 1; have := hm 2 1
    show 2 * len V 1 ≤ _
    linarith
  · have := hz 2; have := hs 2; have := hm 0 2; have := hm 1 2
    show 2 * len V 2 ≤ _
    linarith

theorem sum_max (a : Fin 3 → ℝ) (h : ∑ e, a e = 0) (t A : ℝ) (hb : ∀ e, t * |a e| ≤ A) (ht : 0 ≤ t) (hA : 0 ≤ A) :
    t * ∑ e, max (a e) 0 ≤ A := by
  rw [Fin.sum_univ_three] at h ⊢
  have h0 := hb 0
  have h1 := hb 1
  have h2 := hb 2
  rcases le_total (a 0) 0 with s0 | s0 <;> rcases le_total (a 1) 0 with s1 | s1 <;> rcases le_total (a 2) 0 with s2 | s2 <;>
    simp only [s0, s1, s2, abs_of_nonneg, abs_of_nonpos, max_eq_left, max_eq_right] at h0 h1 h2 ⊢ <;> nlinarith

/-- Normal velocity of a valid domain. -/
theorem nv_eq {D : Dom n b} {i : Bool} (hD : Valid D i) (k : Fin n) (e : Fin 3) :
    normalVelocity D k e = dot D.velocity (normal (D.cell k).corner e) := by
  unfold normalVelocity dot
  rw [hD.geom k]
  rfl

theorem len_cell {D : Dom n b} {i : Bool} (hD : Valid D i) (k : Fin n) (e : Fin 3) : (D.cell k).len e = len (D.cell k).corner e := by
  rw [hD.geom k]; rfl

theorem area_cell {D : Dom n b} {i : Bool} (hD : Valid D i) (k : Fin n) : (D.cell k).area = area (D.cell k).corner := by
  rw [hD.geom k]; rfl

theorem radius_cell {D : Dom n b} {i : Bool} (hD : Valid D i) (k : Fin n) : (D.cell k).radius = radius i (D.cell k).corner := by
  rw [hD.geom k]; rfl

theorem nv_closed {D : Dom n b} {i : Bool} (hD : Valid D i) (k : Fin n) : ∑ e, (D.cell k).len e * normalVelocity D k e = 0 := by
  obtain ⟨c1, c2⟩ := C77_closed (hD.ccw k)
  simp only [len_cell hD, nv_eq hD, dot]
  rw [Fin.sum_univ_three] at *
  linear_combination D.velocity.1 * c1 + D.velocity.2 * c2

/-- The fold over the edges is a sum. -/
theorem update_eq (D : Dom n b) (edge : Fin n → Fin 3 → ℝ) (bdry : Fin b → ℝ) (k : Fin n) :
    update D edge bdry k = -(∑ e, edgeFlux D edge bdry k e * (D.cell k).len e) / (D.cell k).area := by
  unfold update
  congr 1
  rw [Fin.sum_univ_three]
  show 0 - edgeFlux D edge bdry k 0 * (D.cell k).len 0 - edgeFlux D edge bdry k 1 * (D.cell k).len 1 -
    edgeFlux D edge bdry k 2 * (D.cell k).len 2 = _
  ring

theorem edgeFlux_eq (D : Dom n b) (edge : Fin n → Fin 3 → ℝ) (bdry : Fin b → ℝ) (k : Fin n) (e : Fin 3) :
    edgeFlux D edge bdry k e = max (normalVelocity D k e) 0 * edge k e + min (normalVelocity D k e) 0 * outer D edge bdry k e := by
  unfold edgeFlux
  split_ifs with h
  · rw [max_eq_right h.le, min_eq_left h.le]; ring
  · push Not at h
    rw [max_eq_left h, min_eq_right h]; ring

/-! ## The fold of the time step -/

theorem foldl_min {α : Type*} (f : α → ℝ) (l : List α) (t : ℝ) :
    let r := l.foldl (fun t k => if t > f k then f k else t) t
    r ≤ t ∧ (∀ k ∈ l, r ≤ f k) ∧ (r = t ∨ ∃ k ∈ l, r = f k) := by
  induction l generalizing t with
  | nil => exact ⟨le_rfl, by simp, Or.inl rfl⟩
  | cons a l ih =>
    simp only [List.foldl_cons]
    obtain ⟨h1, h2, h3⟩ := ih (if t > f a then f a else t)
    refine ⟨h1.trans ?_, ?_, ?_⟩
    · split_ifs with h
      · exact h.le
      · exact le_rfl
    · intro k hk
      rcases List.mem_cons.mp hk with rfl | hk
      · refine h1.trans ?_
        split_ifs with h
        · exact le_rfl
        · exact not_lt.mp h
      · exact h2 k hk
    · rcases h3 with h3 | ⟨k, hk, h3⟩
      · split_ifs at h3 with h
        · right
          exact ⟨a, by simp, by rw [if_pos h]; exact h3⟩
        · left
          rw [if_neg h]; exact h3
      · exact Or.inr ⟨k, by simp [hk], h3⟩

theorem optimal_not_full (D : Dom n b) {k : Fin n} (h : D.full k = false) : optimal D k = huge := by
  unfold optimal
  have : ∀ (l : List (Fin 3)) (t : ℝ), l.foldl (fun t e =>
    if D.full k = true then
      if |normalVelocity D k e| ≠ 0 then
        if t > (D.cell k).radius / |normalVelocity D k e| then (D.cell k).radius / |normalVelocity D k e| else t
      else t
    else t) t = t := by
    intro l t
    induction l generalizing t with
    | nil => rfl
    | cons a l ih => 
      rw [List.foldl_cons, if_neg (by simp [h])]
      exact ih t
  exact this _ _

theorem optimal_full (D : Dom n b) {k : Fin n} (h : D.full k = true) :
    optimal D k ≤ huge ∧ (∀ e, normalVelocity D k e ≠ 0 → optimal D k ≤ (D.cell k).radius / |normalVelocity D k e|) ∧
    (optimal D k = huge ∨ ∃ e, normalVelocity D k e ≠ 0 ∧ optimal D k = (D.cell k).radius / |normalVelocity D k e|) := by
  have : ∀ (l : List (Fin 3)) (t : ℝ), l.foldl (fun t e =>
    if D.full k = true then
      if |normalVelocity D k e| ≠ 0 then
        if t > (D.cell k).radius / |normalVelocity D k e| then (D.cell k).radius / |normalVelocity D k e| else t
      else t
    else t) t = (l.filter fun e => normalVelocity D k e ≠ 0).foldl (fun t e => if t > (D.cell k).radius / |normalVelocity D k e| then
        (D.cell k).radius / |normalVelocity D k e| else t) t := by
    intro l t
    induction l generalizing t with
    | nil => rfl
    | cons a l ih =>
      simp only [List.foldl_cons, h, if_true]
      by_cases ha : normalVelocity D k a = 0
      · rw [List.filter_cons_of_neg (by simpa using ha), if_neg (by simp [ha])]
        simpa [h] using ih t
      · rw [List.filter_cons_of_pos (by simpa using ha), if_pos (by simpa using ha), List.foldl_cons]
        simpa [h] using ih _
  unfold optimal
  rw [this]
  obtain ⟨h1, h2, h3⟩ := foldl_min (fun e => (D.cell k).radius / |normalVelocity D k e|) ((List.finRange 3).filter fun e => normalVelocity D k e ≠ 0) huge
  refine ⟨h1, ?_, ?_⟩
  · intro e he
    exact h2 e (by simp [he])
  · rcases h3 with h3 | ⟨e, he, h3⟩
    · exact Or.inl h3
    · simp at he
      exact Or.inr ⟨e, he, h3⟩

end Verif.Adv
