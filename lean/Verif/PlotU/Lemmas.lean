import Verif.PlotU.Spec

/-! # Lemmas for reading result files -/

namespace Verif.PlotU

set_option linter.unusedSectionVars false

open Verif.Polygon (Pt)
open Verif.FileFn (Var)

variable {K : Type*} [Field K] [LinearOrder K] [IsStrictOrderedRing K]

theorem stored_value {v : Var K} {i j : ℕ} {a : K} (h : Stored i j a v) : v.value i j = a := by
  cases v with
  | one v => simp only [Stored] at h; simp [Var.value, List.getD, h]
  | two v =>
    obtain ⟨r, h1, h2⟩ := h
    simp [Var.value, List.getD, h1, h2]

theorem holds_value {f : Sww K} {name : String} {v : Var K} {i j : ℕ} {a : K} (hv : f.vars name = some v) (h : f.Holds name i j a) :
    v.value i j = a := by
  obtain ⟨w, hw, h⟩ := h
  rw [hv] at hw
  obtain rfl := Option.some.inj hw
  exact stored_value h

theorem at_table {l : List ℕ} {n : ℕ} {g : ℕ → ℕ → K} {k j i : ℕ} (hk : l[k]? = some i) (hj : j < n) : At (table l n g) k j (g i j) := by
  refine ⟨(List.range n).map fun j => g i j, ?_, ?_⟩
  · simp [table, hk]
  · simp [hj]

theorem at_overTime {pick : List K → K} {m n : ℕ} {g : ℕ → ℕ → K} {j : ℕ} (hj : j < n) :
    At (overTime pick m n g) 0 j (pick ((List.range m).map fun i => g i j)) :=
  ⟨_, rfl, by simp [hj]⟩

theorem at_unique {A : List (List K)} {k j : ℕ} {a b : K} (ha : At A k j a) (hb : At A k j b) : a = b := by
  obtain ⟨r, h1, h2⟩ := ha
  obtain ⟨s, h3, h4⟩ := hb
  rw [h1] at h3
  obtain rfl := Option.some.inj h3
  rw [h2] at h4
  exact Option.some.inj h4

theorem rect_table (l : List ℕ) (n : ℕ) (g : ℕ → ℕ → K) : Rect (table l n g) l.length n := by
  refine ⟨by simp [table], fun r hr => ?_⟩
  obtain ⟨i, -, rfl⟩ := List.mem_map.mp hr
  simp

theorem rect_overTime (pick : List K → K) (m n : ℕ) (g : ℕ → ℕ → K) : Rect (overTime pick m n g) 1 n := by
  refine ⟨rfl, fun r hr => ?_⟩
  simp only [overTime, List.mem_singleton] at hr
  subst hr
  simp

theorem foldl_max (l : List K) (a : K) : l.foldl max a ∈ a :: l ∧ ∀ b ∈ a :: l, b ≤ l.foldl max a := by
  induction l generalizing a with
  | nil => simp
  | cons c l ih =>
    obtain ⟨h1, h2⟩ := ih (max a c)
    rw [List.foldl_cons]
    refine ⟨?_, ?_⟩
    · rcases List.mem_cons.mp h1 with h | h
      · rw [h]
        rcases max_choice a c with h' | h' <;> rw [h'] <;> simp
      · simp [h]
    · intro b hb
      have h3 := h2 (max a c) (by simp)
      simp only [List.mem_cons] at hb
      rcases hb with rfl | rfl | hb
      · exact (le_max_left _ _).trans h3
      · exact (le_max_right _ _).trans h3
      · exact h2 b (by simp [hb])

theorem largest_spec {l : List K} (h : l ≠ []) : largest l ∈ l ∧ ∀ b ∈ l, b ≤ largest l := by
  cases l with
  | nil => exact absurd rfl h
  | cons a l => exact foldl_max l a

theorem foldl_furthest (l : List K) (a : K) :
    l.foldl (fun b v => if |b| < |v| then v else b) a ∈ a :: l ∧ ∀ b ∈ a :: l, |b| ≤ |l.foldl (fun b v => if |b| < |v| then v else b) a| := by
  induction l generalizing a with
  | nil => simp
  | cons c l ih =>
    rw [List.foldl_cons]
    obtain ⟨h1, h2⟩ := ih (if |a| < |c| then c else a)
    have h3 := h2 (if |a| < |c| then c else a) (by simp)
    have h4 : |a| ≤ |if |a| < |c| then c else a| ∧ |c| ≤ |if |a| < |c| then c else a| := by
      split_ifs with h
      · exact ⟨h.le, le_rfl⟩
      · exact ⟨le_rfl, not_lt.mp h⟩
    refine ⟨?_, ?_⟩
    · rcases List.mem_cons.mp h1 with h | h
      · rw [h]
        split_ifs <;> simp
      · simp [h]
    · intro b hb
      simp only [List.mem_cons] at hb
      rcases hb with rfl | rfl | hb
      · exact h4.1.trans h3
      · exact h4.2.trans h3
      · exact h2 b (by simp [hb])

theorem furthest_spec {l : List K} (h : l ≠ []) : furthest l ∈ l ∧ ∀ b ∈ l, |b| ≤ |furthest l| := by
  cases l with
  | nil => exact absurd rfl h
  | cons a l => exact foldl_furthest l a

theorem largest_range {m : ℕ} (hm : 0 < m) (g : ℕ → K) :
    (∃ i, i < m ∧ largest ((List.range m).map g) = g i) ∧ ∀ i, i < m → g i ≤ largest ((List.range m).map g) := by
  obtain ⟨h1, h2⟩ := largest_spec (l := (List.range m).map g) (by simp; omega)
  refine ⟨?_, fun i hi => h2 _ (List.mem_map.mpr ⟨i, by simpa using hi, rfl⟩)⟩
  obtain ⟨i, hi, h⟩ := List.mem_map.mp h1
  exact ⟨i, by simpa using hi, h.symm⟩

theorem furthest_range {m : ℕ} (hm : 0 < m) (g : ℕ → K) :
    (∃ i, i < m ∧ furthest ((List.range m).map g) = g i) ∧ ∀ i, i < m → |g i| ≤ |furthest ((List.range m).map g)| := by
  obtain ⟨h1, h2⟩ := furthest_spec (l := (List.range m).map g) (by simp; omega)
  refine ⟨?_, fun i hi => h2 _ (List.mem_map.mpr ⟨i, by simpa using hi, rfl⟩)⟩
  obtain ⟨i, hi, h⟩ := List.mem_map.mp h1
  exact ⟨i, by simpa using hi, h.symm⟩

theorem clip_eq (h : K) : clip h = max h 0 := by
  unfold clip
  split_ifs with h'
  · rw [max_eq_left h'.le]
  · rw [max_eq_right (not_lt.mp h')]

theorem velocity_vel {hmin : K} (hh : 0 ≤ hmin) (u d : K) : Vel hmin u d (velocity hmin u d) := by
  unfold velocity
  refine ⟨fun h => ?_, fun h => ?_⟩
  · rw [if_neg (not_lt.mpr h), mul_zero]
  · rw [if_pos h]
    have : d + 1 / 10 ^ 12 ≠ 0 := ne_of_gt (add_pos_of_pos_of_nonneg (hh.trans_lt h) (by positivity))
    rw [mul_one, mul_assoc, one_div_mul_cancel this, mul_one]

theorem chosen_inds {m : ℕ} {l : List ℕ} {s : Slices} (h : Chosen m l s) : s.inds m = some l := by
  cases s <;> simp_all [Chosen, Slices.inds]

theorem depth_height {f : Sww K} {inds : Option (List ℕ)} {st el : Var K} (hs : f.vars "stage" = some st) (he : f.vars "elevation" = some el)
    (hi : inds.isSome ∨ Fixed f "elevation" ∨ (f.vars "height").isSome) {i j : ℕ} {d : K} (h : Depth f i j d) : heightAt f inds st el i j = d := by
  unfold heightAt
  rcases h with ⟨h, hh, rfl⟩ | ⟨hn, a, b, ha, hb, rfl⟩
  · obtain ⟨v, hv, h1⟩ := hh
    rw [hv]
    simp only [clip_eq, stored_value h1]
  · rw [hn]
    simp only [clip_eq, holds_value hs ha]
    have : elevAt inds f.time.length el i j = el.value i j := by
      unfold elevAt
      cases inds with
      | some l => rfl
      | none =>
        cases el with
        | one v => rfl
        | two v =>
          rcases hi with hi | ⟨w, hw⟩ | hi
          · simp at hi
          · rw [he] at hw; simp at hw
          · rw [hn] at hi; simp at hi
    rw [this, holds_value he hb]

end Verif.PlotU
