import Verif.CG.Model
import Mathlib.LinearAlgebra.Dimension.Constructions
import Mathlib.LinearAlgebra.Dimension.Finite
import Mathlib.LinearAlgebra.Matrix.DotProduct
import Mathlib.Tactic.Linarith
import Mathlib.Tactic.FieldSimp
import Mathlib.Tactic.LinearCombination

/-! # Algebra of the conjugate gradient iteration -/

namespace Verif.CG

open Matrix

set_option linter.unusedSectionVars false

variable {n : ℕ} {K : Type*} [Field K] [LinearOrder K] [IsStrictOrderedRing K]

/-- Symmetric and positive definite. -/
structure SPD (A : Matrix (Fin n) (Fin n) K) : Prop where
  symm : Aᵀ = A
  pos : ∀ v : Vec n K, v ≠ 0 → 0 < v ⬝ᵥ A *ᵥ v

/-- Weights that make the preconditioner positive. -/
def PosW (w : Option (Vec n K)) : Prop := ∀ u ∈ w, ∀ i, 0 < u i

theorem SPD.dot {A : Matrix (Fin n) (Fin n) K} (hA : SPD A) (u v : Vec n K) : u ⬝ᵥ A *ᵥ v = (A *ᵥ u) ⬝ᵥ v := by
  rw [dotProduct_mulVec, ← mulVec_transpose, hA.symm]

theorem precond_add (w : Option (Vec n K)) (u v : Vec n K) : precond w (u + v) = precond w u + precond w v := by
  cases w with
  | none => rfl
  | some w => funext i; simp [precond, mul_add]

theorem precond_smul (w : Option (Vec n K)) (c : K) (v : Vec n K) : precond w (c • v) = c • precond w v := by
  cases w with
  | none => rfl
  | some w => funext i; simp [precond]; ring

theorem precond_sub (w : Option (Vec n K)) (u v : Vec n K) : precond w (u - v) = precond w u - precond w v := by
  have : u - v = u + (-1 : K) • v := by simp [sub_eq_add_neg]
  rw [this, precond_add, precond_smul]; simp [sub_eq_add_neg]

theorem precond_symm (w : Option (Vec n K)) (u v : Vec n K) : u ⬝ᵥ precond w v = precond w u ⬝ᵥ v := by
  cases w with
  | none => rfl
  | some w =>
    unfold dotProduct precond
    apply Finset.sum_congr rfl
    intro i _
    ring

theorem precond_comm (w : Option (Vec n K)) (u v : Vec n K) : u ⬝ᵥ precond w v = v ⬝ᵥ precond w u := by
  rw [precond_symm, dotProduct_comm]

theorem precond_nonneg {w : Option (Vec n K)} (hw : PosW w) (v : Vec n K) : 0 ≤ v ⬝ᵥ precond w v := by
  cases w with
  | none => exact Finset.sum_nonneg (fun i _ => mul_self_nonneg _)
  | some w =>
    refine Finset.sum_nonneg (fun i _ => ?_)
    have h := hw w rfl i
    have e : v i * precond (some w) v i = (1 / w i) * (v i * v i) := by simp [precond]; ring
    rw [e]
    exact mul_nonneg (by positivity) (mul_self_nonneg _)

theorem precond_pos {w : Option (Vec n K)} (hw : PosW w) {v : Vec n K} (hv : v ≠ 0) : 0 < v ⬝ᵥ precond w v := by
  obtain ⟨i, hi⟩ : ∃ i, v i ≠ 0 := by
    by_contra h
    push Not at h
    exact hv (funext h)
  have hsq : 0 < v i * v i := mul_self_pos.mpr hi
  cases w with
  | none => exact Finset.sum_pos' (fun i _ => mul_self_nonneg _) ⟨i, Finset.mem_univ _, hsq⟩
  | some w =>
    have e : ∀ i, v i * precond (some w) v i = (1 / w i) * (v i * v i) := fun i => by simp [precond]; ring
    refine Finset.sum_pos' (fun i _ => ?_) ⟨i, Finset.mem_univ _, ?_⟩
    · have h := hw w rfl i
      rw [e]
      exact mul_nonneg (by positivity) (mul_self_nonneg _)
    · have h := hw w rfl i
      rw [e]
      exact mul_pos (by positivity) hsq

/-- One pass without regard to division by zero. -/
def adv (A : Matrix (Fin n) (Fin n) K) (w : Option (Vec n K)) (s : St n K) : St n K :=
  let alpha := s.rTr / (s.d ⬝ᵥ A *ᵥ s.d)
  let r := s.r - alpha • (A *ᵥ s.d)
  ⟨s.x + alpha • s.d, r, precond w r + ((r ⬝ᵥ precond w r) / s.rTr) • s.d, r ⬝ᵥ precond w r⟩

theorem pyStep_eq (A : Matrix (Fin n) (Fin n) K) (w : Option (Vec n K)) (s : St n K) :
    pyStep A w s = if s.d ⬝ᵥ A *ᵥ s.d = 0 ∨ s.rTr = 0 then none else some (adv A w s) := rfl

theorem cStep_eq (A : Matrix (Fin n) (Fin n) K) (w : Option (Vec n K)) (s : St n K) : cStep A w s = pyStep A w s := by
  rw [pyStep_eq]
  unfold cStep adv
  simp only [neg_smul, ← sub_eq_add_neg, one_smul, add_comm]

theorem cStart_none (A : Matrix (Fin n) (Fin n) K) (b x0 : Vec n K) : cStart A none b x0 = pyStart A none b x0 := by
  unfold cStart pyStart precond
  simp only [neg_smul, one_smul, ← sub_eq_add_neg]

theorem cStart_eq (A : Matrix (Fin n) (Fin n) K) (w : Option (Vec n K)) (b x0 : Vec n K) :
    cStart A w b x0 = ⟨x0, b - A *ᵥ x0, precond w (b - A *ᵥ x0), (b - A *ᵥ x0) ⬝ᵥ precond w (b - A *ᵥ x0)⟩ := by
  unfold cStart
  simp only [neg_smul, one_smul, ← sub_eq_add_neg]

/-- The loop body started from `s` and run `k` times. -/
def iter (A : Matrix (Fin n) (Fin n) K) (w : Option (Vec n K)) (s : St n K) (k : ℕ) : St n K := (adv A w)^[k] s

theorem iter_succ (A : Matrix (Fin n) (Fin n) K) (w : Option (Vec n K)) (s : St n K) (k : ℕ) :
    iter A w s (k + 1) = adv A w (iter A w s k) := by
  unfold iter; rw [Function.iterate_succ_apply']

/-- What always holds: the vector `r` is the residual and `rTr` its square. -/
structure Inv (A : Matrix (Fin n) (Fin n) K) (w : Option (Vec n K)) (b : Vec n K) (s : St n K) : Prop where
  res : s.r = b - A *ᵥ s.x
  sq : s.rTr = s.r ⬝ᵥ precond w s.r

theorem inv_adv {A : Matrix (Fin n) (Fin n) K} {w : Option (Vec n K)} {b : Vec n K} {s : St n K} (h : Inv A w b s) : Inv A w b (adv A w s) := by
  refine ⟨?_, rfl⟩
  simp only [adv, h.res, mulVec_add, mulVec_smul]
  rw [sub_sub]

theorem inv_pyStart (A : Matrix (Fin n) (Fin n) K) (w : Option (Vec n K)) (b x0 : Vec n K) : Inv A w b (pyStart A w b x0) := ⟨rfl, rfl⟩

theorem inv_cStart (A : Matrix (Fin n) (Fin n) K) (w : Option (Vec n K)) (b x0 : Vec n K) : Inv A w b (cStart A w b x0) := by
  rw [cStart_eq]; exact ⟨rfl, rfl⟩

/-- The search direction meets the residual like the preconditioned residual does. -/
def Dir (w : Option (Vec n K)) (s : St n K) : Prop := s.r ⬝ᵥ s.d = s.rTr ∧ s.rTr = s.r ⬝ᵥ precond w s.r

theorem dir_cStart (A : Matrix (Fin n) (Fin n) K) (w : Option (Vec n K)) (b x0 : Vec n K) : Dir w (cStart A w b x0) := by
  rw [cStart_eq]; exact ⟨rfl, rfl⟩

theorem curv_pos {A : Matrix (Fin n) (Fin n) K} (hA : SPD A) {w : Option (Vec n K)} {s : St n K} (h : Dir w s) (hr : 0 < s.rTr) :
    0 < s.d ⬝ᵥ A *ᵥ s.d := by
  apply hA.pos
  intro hd
  have := h.1
  rw [hd, dotProduct_zero] at this
  exact hr.ne this

theorem dir_adv {A : Matrix (Fin n) (Fin n) K} (hA : SPD A) {w : Option (Vec n K)} {s : St n K} (h : Dir w s) (hr : 0 < s.rTr) :
    Dir w (adv A w s) := by
  have hc := curv_pos hA h hr
  refine ⟨?_, rfl⟩
  have h0 : (adv A w s).r ⬝ᵥ s.d = 0 := by
    simp only [adv, sub_dotProduct, smul_dotProduct, smul_eq_mul]
    rw [h.1, dotProduct_comm (A *ᵥ s.d) s.d, div_mul_cancel₀ _ hc.ne', sub_self]
  have hd : (adv A w s).d = precond w (adv A w s).r + ((adv A w s).rTr / s.rTr) • s.d := rfl
  rw [hd, dotProduct_add, dotProduct_smul, h0, smul_zero, add_zero]
  rfl

/-! ## Orthogonality -/

/-- Residuals are orthogonal and directions conjugate up to pass `k`. -/
structure Orth (A : Matrix (Fin n) (Fin n) K) (w : Option (Vec n K)) (s : ℕ → St n K) (k : ℕ) : Prop where
  res : ∀ i j, i < j → j ≤ k → (s i).r ⬝ᵥ precond w (s j).r = 0
  dir : ∀ i j, i < j → j ≤ k → (s i).d ⬝ᵥ A *ᵥ (s j).d = 0

theorem orth {A : Matrix (Fin n) (Fin n) K} (hA : SPD A) (w : Option (Vec n K)) (s : ℕ → St n K)
    (hs : ∀ k, s (k + 1) = adv A w (s k)) (h0 : Dir w (s 0)) (h0d : (s 0).d = precond w (s 0).r) (k : ℕ) (hk : ∀ j < k, 0 < (s j).rTr) :
    Orth A w s k ∧ ∀ j ≤ k, Dir w (s j) := by
  induction k with
  | zero =>
    refine ⟨⟨fun i j h1 h2 => by omega, fun i j h1 h2 => by omega⟩, fun j hj => ?_⟩
    have : j = 0 := by omega
    rw [this]; exact h0
  | succ k ih =>
    obtain ⟨ho, hd⟩ := ih (fun j hj => hk j (by omega))
    have hdir : ∀ j ≤ k + 1, Dir w (s j) := by
      intro j hj
      rcases Nat.lt_or_ge j (k + 1) with h | h
      · exact hd j (by omega)
      · have : j = k + 1 := by omega
        rw [this, hs]
        exact dir_adv hA (hd k le_rfl) (hk k (by omega))
    have hcurv : ∀ j ≤ k, 0 < (s j).d ⬝ᵥ A *ᵥ (s j).d := fun j hj => curv_pos hA (hd j hj) (hk j (by omega))
    -- recurrences
    have er : ∀ j, (s (j + 1)).r = (s j).r - ((s j).rTr / ((s j).d ⬝ᵥ A *ᵥ (s j).d)) • (A *ᵥ (s j).d) := fun j => by rw [hs]; rfl
    have ed : ∀ j, (s (j + 1)).d = precond w (s (j + 1)).r + ((s (j + 1)).rTr / (s j).rTr) • (s j).d := fun j => by rw [hs]; rfl
    -- preconditioned residuals are conjugate to later directions
    have hzd : ∀ i, i < k → precond w (s i).r ⬝ᵥ A *ᵥ (s k).d = 0 := by
      intro i hi
      cases i with
      | zero => rw [← h0d]; exact ho.dir 0 k hi le_rfl
      | succ i =>
        have : precond w (s (i + 1)).r = (s (i + 1)).d - ((s (i + 1)).rTr / (s i).rTr) • (s i).d := by rw [ed i]; simp
        rw [this, sub_dotProduct, smul_dotProduct, ho.dir (i + 1) k hi le_rfl, ho.dir i k (by omega) le_rfl]
        simp
    have hzk : precond w (s k).r ⬝ᵥ A *ᵥ (s k).d = (s k).d ⬝ᵥ A *ᵥ (s k).d := by
      cases k with
      | zero => rw [← h0d]
      | succ i =>
        have : precond w (s (i + 1)).r = (s (i + 1)).d - ((s (i + 1)).rTr / (s i).rTr) • (s i).d := by rw [ed i]; simp
        rw [this, sub_dotProduct, smul_dotProduct, ho.dir i (i + 1) (by omega) le_rfl]
        simp
    have hres : ∀ i ≤ k, (s i).r ⬝ᵥ precond w (s (k + 1)).r = 0 := by
      intro i hi
      rw [precond_symm, er k, dotProduct_sub, dotProduct_smul, ← precond_symm]
      rcases Nat.lt_or_ge i k with h | h
      · rw [ho.res i k h le_rfl, hzd i h]; simp
      · have : i = k := by omega
        subst this
        rw [hzk, ← (hd i le_rfl).2, smul_eq_mul, div_mul_cancel₀ _ (hcurv i le_rfl).ne', sub_self]
    have hAd : ∀ j ≤ k, A *ᵥ (s j).d = (((s j).d ⬝ᵥ A *ᵥ (s j).d) / (s j).rTr) • ((s j).r - (s (j + 1)).r) := by
      intro j hj
      rw [er j, sub_sub_cancel, smul_smul, div_mul_div_comm, mul_comm ((s j).d ⬝ᵥ A *ᵥ (s j).d), div_self, one_smul]
      exact mul_ne_zero (hk j (by omega)).ne' (hcurv j hj).ne'
    refine ⟨⟨fun i j h1 h2 => ?_, fun i j h1 h2 => ?_⟩, hdir⟩
    · rcases Nat.lt_or_ge j (k + 1) with h | h
      · exact ho.res i j h1 (by omega)
      · have : j = k + 1 := by omega
        rw [this]; exact hres i (by omega)
    · rcases Nat.lt_or_ge j (k + 1) with h | h
      · exact ho.dir i j h1 (by omega)
      · have : j = k + 1 := by omega
        subst this
        rw [ed k, mulVec_add, mulVec_smul, dotProduct_add, dotProduct_smul, hA.dot (s i).d, hAd i (by omega), smul_dotProduct, sub_dotProduct,
          hres i (by omega)]
        rcases Nat.lt_or_ge i k with h' | h'
        · rw [hres (i + 1) (by omega), ho.dir i k h' le_rfl]; simp
        · have : i = k := by omega
          subst this
          rw [← (hdir (i + 1) le_rfl).2]
          simp only [smul_eq_mul]
          have := (hk i (by omega)).ne'
          field_simp
          ring

/-- After at most `n` passes the residual is zero. -/
theorem finite {A : Matrix (Fin n) (Fin n) K} (hA : SPD A) {w : Option (Vec n K)} (s : ℕ → St n K)
    (hs : ∀ k, s (k + 1) = adv A w (s k)) (h0 : Dir w (s 0)) (h0d : (s 0).d = precond w (s 0).r) : ∃ j ≤ n, ¬ 0 < (s j).rTr := by
  by_contra hcon
  push Not at hcon
  obtain ⟨ho, hd⟩ := orth hA w s hs h0 h0d n (fun j hj => hcon j hj.le)
  have hli : LinearIndependent K (fun i : Fin (n + 1) => (s i).r) := by
    rw [Fintype.linearIndependent_iff]
    intro g hg i
    have h1 : (∑ j : Fin (n + 1), g j • (s j).r) ⬝ᵥ precond w (s i).r = 0 := by rw [hg, zero_dotProduct]
    rw [sum_dotProduct, Finset.sum_eq_single i] at h1
    · rw [smul_dotProduct, ← (hd i (by omega)).2, smul_eq_mul] at h1
      rcases mul_eq_zero.mp h1 with h | h
      · exact h
      · exact absurd h (hcon i (by omega)).ne'
    · intro j _ hj
      rw [smul_dotProduct]
      rcases Nat.lt_or_ge j i with h | h
      · rw [ho.res j i h (by omega), smul_zero]
      · rw [precond_comm, ho.res i j (lt_of_le_of_ne h (fun e => hj (Fin.ext e.symm))) (by omega), smul_zero]
    · intro h; exact absurd (Finset.mem_univ i) h
  have := hli.fintype_card_le_finrank
  rw [Module.finrank_fin_fun, Fintype.card_fin] at this
  omega

end Verif.CG
