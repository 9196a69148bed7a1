import Verif.Quantity.Model
import Mathlib.Tactic.Ring
import Mathlib.Tactic.Linarith
import Mathlib.Tactic.FieldSimp
import Mathlib.Tactic.Positivity
import Mathlib.Algebra.Order.Ring.Abs

set_option linter.unusedSectionVars false

namespace Verif.Quantity

variable {K : Type*} [Field K] [LinearOrder K] [IsStrictOrderedRing K]

theorem semiLoop_fst (dt : K) (l : List (Cell K)) :
    (semiLoop dt l).1 = true ↔ ∀ x ∈ l, 0 < 1 - dt * x.s := by
  induction l with
  | nil => simp [semiLoop]
  | cons x xs ih =>
    unfold semiLoop
    by_cases h : 1 - dt * x.s ≤ 0
    · simp only [h, if_true, Bool.false_eq_true, false_iff]
      intro hh
      exact absurd (hh x (by simp)) (not_lt.mpr h)
    · simp only [h, if_false]
      rw [ih, List.forall_mem_cons]
      constructor
      · intro hh; exact ⟨not_le.mp h, hh⟩
      · intro hh; exact hh.2

theorem semiLoop_snd (dt : K) (l : List (Cell K)) (h : (semiLoop dt l).1 = true) :
    (semiLoop dt l).2 = l.map (fun x => { x with c := x.c / (1 - dt * x.s) }) := by
  induction l with
  | nil => rfl
  | cons x xs ih =>
    rw [semiLoop_fst] at h
    have hx := h x (by simp)
    unfold semiLoop
    simp only [not_le.mpr hx, if_false]
    rw [List.map_cons, ih ((semiLoop_fst dt xs).mpr (fun y hy => h y (by simp [hy])))]

/-! ### limiter -/

theorem lowest_le (qc : K) (n : List (Option K)) : lowest qc n ≤ qc ∧ ∀ q, some q ∈ n → lowest qc n ≤ q := by
  unfold lowest
  induction n generalizing qc with
  | nil => simp
  | cons o n ih =>
    rw [List.foldl_cons]
    cases o with
    | none =>
      obtain ⟨h1, h2⟩ := ih qc
      refine ⟨h1, fun q hq => ?_⟩
      rcases List.mem_cons.mp hq with h | h
      · cases h
      · exact h2 q h
    | some a =>
      obtain ⟨h1, h2⟩ := ih (min qc a)
      refine ⟨h1.trans (min_le_left _ _), fun q hq => ?_⟩
      rcases List.mem_cons.mp hq with h | h
      · cases h; exact h1.trans (min_le_right _ _)
      · exact h2 q h

theorem le_highest (qc : K) (n : List (Option K)) : qc ≤ highest qc n ∧ ∀ q, some q ∈ n → q ≤ highest qc n := by
  unfold highest
  induction n generalizing qc with
  | nil => simp
  | cons o n ih =>
    rw [List.foldl_cons]
    cases o with
    | none =>
      obtain ⟨h1, h2⟩ := ih qc
      refine ⟨h1, fun q hq => ?_⟩
      rcases List.mem_cons.mp hq with h | h
      · cases h
      · exact h2 q h
    | some a =>
      obtain ⟨h1, h2⟩ := ih (max qc a)
      refine ⟨(le_max_left _ _).trans h1, fun q hq => ?_⟩
      rcases List.mem_cons.mp hq with h | h
      · cases h; exact (le_max_right _ _).trans h1
      · exact h2 q h

/-- the lowest value is attained -/
theorem lowest_mem (qc : K) (n : List (Option K)) : lowest qc n = qc ∨ some (lowest qc n) ∈ n := by
  unfold lowest
  induction n generalizing qc with
  | nil => simp
  | cons o n ih =>
    rw [List.foldl_cons]
    cases o with
    | none =>
      rcases ih qc with h | h
      · exact Or.inl h
      · exact Or.inr (List.mem_cons_of_mem _ h)
    | some a =>
      simp only
      rcases ih (min qc a) with h | h
      · rcases min_choice qc a with h' | h'
        · left; rw [h, h']
        · right; rw [h, h']; simp
      · exact Or.inr (List.mem_cons_of_mem _ h)

theorem highest_mem (qc : K) (n : List (Option K)) : highest qc n = qc ∨ some (highest qc n) ∈ n := by
  unfold highest
  induction n generalizing qc with
  | nil => simp
  | cons o n ih =>
    rw [List.foldl_cons]
    cases o with
    | none =>
      rcases ih qc with h | h
      · exact Or.inl h
      · exact Or.inr (List.mem_cons_of_mem _ h)
    | some a =>
      simp only
      rcases ih (max qc a) with h | h
      · rcases max_choice qc a with h' | h'
        · left; rw [h, h']
        · right; rw [h, h']; simp
      · exact Or.inr (List.mem_cons_of_mem _ h)

theorem ratio_nonneg {qc lo hi dq : K} (h1 : lo ≤ qc) (h2 : qc ≤ hi) : 0 ≤ ratio qc lo hi dq := by
  unfold ratio
  split_ifs with h h'
  · exact div_nonneg (by linarith) h.le
  · exact div_nonneg_of_nonpos (by linarith) h'.le
  · exact zero_le_one

theorem phiStep_nonneg {beta r phi : K} (hb : 0 ≤ beta) (hr : 0 ≤ r) (hp : 0 ≤ phi) : 0 ≤ phiStep beta r phi := by
  unfold phiStep
  exact le_min (le_min (mul_nonneg hr hb) zero_le_one) hp

theorem phiStep_le (beta r phi : K) : phiStep beta r phi ≤ phi ∧ phiStep beta r phi ≤ r * beta ∧ phiStep beta r phi ≤ 1 :=
  ⟨min_le_right _ _, (min_le_left _ _).trans (min_le_left _ _), (min_le_left _ _).trans (min_le_right _ _)⟩

/-- a factor below `ratio*beta` keeps the scaled jump within `beta` times the range -/
theorem scaled_bounds {qc lo hi dq phi beta : K} (h1 : lo ≤ qc) (h2 : qc ≤ hi) (hb : 0 ≤ beta) (hp : 0 ≤ phi)
    (hr : phi ≤ ratio qc lo hi dq * beta) : beta * (lo - qc) ≤ phi * dq ∧ phi * dq ≤ beta * (hi - qc) := by
  unfold ratio at hr
  split_ifs at hr with h h'
  · have e : (hi - qc) / dq * beta * dq = beta * (hi - qc) := by field_simp
    have h3 : phi * dq ≤ beta * (hi - qc) := by
      rw [← e]; exact mul_le_mul_of_nonneg_right hr h.le
    refine ⟨?_, h3⟩
    have : beta * (lo - qc) ≤ 0 := mul_nonpos_of_nonneg_of_nonpos hb (by linarith)
    have : 0 ≤ phi * dq := mul_nonneg hp h.le
    linarith
  · have hne : dq ≠ 0 := h'.ne
    have e : (lo - qc) / dq * beta * dq = beta * (lo - qc) := by field_simp
    have h3 : beta * (lo - qc) ≤ phi * dq := by
      rw [← e]; exact mul_le_mul_of_nonpos_right hr h'.le
    refine ⟨h3, ?_⟩
    have : 0 ≤ beta * (hi - qc) := mul_nonneg hb (by linarith)
    have : phi * dq ≤ 0 := mul_nonpos_of_nonneg_of_nonpos hp h'.le
    linarith
  · have : dq = 0 := le_antisymm (not_lt.mp h) (not_lt.mp h')
    subst this
    have : beta * (lo - qc) ≤ 0 := mul_nonpos_of_nonneg_of_nonpos hb (by linarith)
    have : 0 ≤ beta * (hi - qc) := mul_nonneg hb (by linarith)
    constructor <;> linarith

/-- no limiting happens for a value already inside the range when `beta ≥ 1` -/
theorem ratio_ge_one {qc lo hi dq beta : K} (hb : 1 ≤ beta) (h1 : lo ≤ qc + dq) (h2 : qc + dq ≤ hi) :
    1 ≤ ratio qc lo hi dq * beta := by
  have : 1 ≤ ratio qc lo hi dq := by
    unfold ratio
    split_ifs with h h'
    · rw [le_div_iff₀ h]; linarith
    · rw [le_div_iff_of_neg h']; linarith
    · exact le_refl _
  calc (1 : K) = 1 * 1 := (mul_one 1).symm
    _ ≤ ratio qc lo hi dq * beta := mul_le_mul this hb zero_le_one (by linarith)

theorem phiStep_one {beta r : K} (h : 1 ≤ r * beta) : phiStep beta r 1 = 1 := by
  unfold phiStep
  rw [min_eq_right h]; simp

end Verif.Quantity
