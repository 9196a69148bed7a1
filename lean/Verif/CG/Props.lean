import Verif.CG.Lemmas
import Mathlib.LinearAlgebra.Matrix.Notation
import Mathlib.Tactic.FinCases
import Mathlib.Tactic.NormNum

/-! # C23: the conjugate gradient solvers -/

namespace Verif.CG

open Matrix

set_option linter.unusedSectionVars false

variable {n : ℕ} {K : Type*} [Field K] [LinearOrder K] [IsStrictOrderedRing K]

/-! ## Vocabulary -/

/-- Square of the residual, in the norm of the preconditioner. -/
def resSq (A : Matrix (Fin n) (Fin n) K) (w : Option (Vec n K)) (b x : Vec n K) : K := (b - A *ᵥ x) ⬝ᵥ precond w (b - A *ᵥ x)

/-- Twice the energy, which for a symmetric positive definite matrix is least at the solution. -/
def energy (A : Matrix (Fin n) (Fin n) K) (b x : Vec n K) : K := x ⬝ᵥ A *ᵥ x - 2 * (b ⬝ᵥ x)

/-- Square of the distance to `y` in the energy norm. -/
def dist2 (A : Matrix (Fin n) (Fin n) K) (y x : Vec n K) : K := (x - y) ⬝ᵥ A *ᵥ (x - y)

theorem dist2_energy {A : Matrix (Fin n) (Fin n) K} (hA : SPD A) (b x y : Vec n K) (hy : A *ᵥ y = b) :
    dist2 A y x = energy A b x + b ⬝ᵥ y := by
  unfold dist2 energy
  rw [mulVec_sub, hy, sub_dotProduct, dotProduct_sub, dotProduct_sub, hA.dot y x, hy, dotProduct_comm x b, dotProduct_comm y b]
  ring

/-! ## Loops -/

theorem pyLoop_ok {A : Matrix (Fin n) (Fin n) K} {w : Option (Vec n K)} {b : Vec n K} {tol atol rTr0 : K} (m : ℕ) :
    ∀ s : St n K, Inv A w b s → ∀ x, pyLoop A w tol atol rTr0 (m + 1) s = .ok x → ¬ goOn tol atol rTr0 (resSq A w b x) := by
  induction m with
  | zero =>
    intro s hs x h
    unfold pyLoop at h
    by_cases hg : goOn tol atol rTr0 s.rTr
    · rw [if_pos hg] at h
      cases hp : pyStep A w s <;> rw [hp] at h <;> simp at h
    · rw [if_neg hg] at h
      cases h
      unfold resSq
      rw [← hs.res, ← hs.sq]; exact hg
  | succ m ih =>
    intro s hs x h
    unfold pyLoop at h
    by_cases hg : goOn tol atol rTr0 s.rTr
    · rw [if_pos hg, pyStep_eq] at h
      by_cases hb : s.d ⬝ᵥ A *ᵥ s.d = 0 ∨ s.rTr = 0
      · rw [if_pos hb] at h; simp at h
      · rw [if_neg hb] at h
        simp only [Nat.add_eq_zero_iff, one_ne_zero, and_false, if_false] at h
        exact ih _ (inv_adv hs) x h
    · rw [if_neg hg] at h
      cases h
      unfold resSq
      rw [← hs.res, ← hs.sq]; exact hg

theorem loops_agree (A : Matrix (Fin n) (Fin n) K) (w : Option (Vec n K)) (tol atol rTr0 : K) (m : ℕ) : ∀ s : St n K,
    match pyLoop A w tol atol rTr0 (m + 1) s with
    | .ok x => cLoop A w tol atol rTr0 (m + 1) s = some (x, 0)
    | .notConverged => ∃ x, cLoop A w tol atol rTr0 (m + 1) s = some (x, -1)
    | .breakdown => cLoop A w tol atol rTr0 (m + 1) s = none := by
  induction m with
  | zero =>
    intro s
    unfold pyLoop cLoop
    by_cases hg : goOn tol atol rTr0 s.rTr
    · rw [if_pos hg, if_pos hg, cStep_eq]
      cases pyStep A w s with
      | none => rfl
      | some s' => exact ⟨_, rfl⟩
    · rw [if_neg hg, if_neg hg]
  | succ m ih =>
    intro s
    unfold pyLoop cLoop
    by_cases hg : goOn tol atol rTr0 s.rTr
    · rw [if_pos hg, if_pos hg, cStep_eq]
      cases pyStep A w s with
      | none => rfl
      | some s' => exact ih s'
    · rw [if_neg hg, if_neg hg]

theorem goOn_pos {tol atol rTr0 rTr : K} (h : goOn tol atol rTr0 rTr) : 0 < rTr := lt_of_le_of_lt (sq_nonneg atol) h.2

/-- With a residual vanishing in time the Python loop returns; the energy does not grow. -/
theorem pyLoop_spd {A : Matrix (Fin n) (Fin n) K} (hA : SPD A) {w : Option (Vec n K)} {tol atol rTr0 : K} (m : ℕ) :
    ∀ s : St n K, Dir w s → (∃ j < m, ¬ 0 < (iter A w s j).rTr) → ∃ x, pyLoop A w tol atol rTr0 m s = .ok x := by
  induction m with
  | zero => rintro s - ⟨j, hj, -⟩; omega
  | succ m ih =>
    rintro s hs ⟨j, hj, hz⟩
    unfold pyLoop
    by_cases hg : goOn tol atol rTr0 s.rTr
    · have hp := goOn_pos hg
      rw [if_pos hg, pyStep_eq, if_neg (by rw [not_or]; exact ⟨(curv_pos hA hs hp).ne', hp.ne'⟩)]
      cases j with
      | zero => exact absurd hp hz
      | succ j =>
        simp only
        rw [if_neg (by omega)]
        exact ih _ (dir_adv hA hs hp) ⟨j, by omega, hz⟩
    · rw [if_neg hg]; exact ⟨_, rfl⟩

theorem energy_adv {A : Matrix (Fin n) (Fin n) K} (hA : SPD A) {w : Option (Vec n K)} {b : Vec n K} {s : St n K} (hi : Inv A w b s)
    (hs : Dir w s) (hr : 0 < s.rTr) :
    energy A b (adv A w s).x = energy A b s.x - s.rTr ^ 2 / (s.d ⬝ᵥ A *ᵥ s.d) := by
  have hc := curv_pos hA hs hr
  have h1 := hs.1
  rw [hi.res, sub_dotProduct, ← hA.dot] at h1
  unfold energy adv
  simp only [mulVec_add, mulVec_smul, add_dotProduct, dotProduct_add, smul_dotProduct, dotProduct_smul, smul_eq_mul]
  have h2 : s.d ⬝ᵥ A *ᵥ s.x = s.x ⬝ᵥ A *ᵥ s.d := by rw [hA.dot, dotProduct_comm]
  rw [h2]
  have h3 : b ⬝ᵥ s.d = s.rTr + s.x ⬝ᵥ A *ᵥ s.d := by linear_combination h1
  rw [h3]
  field_simp
  ring

theorem pyLoop_energy {A : Matrix (Fin n) (Fin n) K} (hA : SPD A) {w : Option (Vec n K)} {b : Vec n K} {tol atol rTr0 : K} (m : ℕ) :
    ∀ s : St n K, Inv A w b s → Dir w s → ∀ x, pyLoop A w tol atol rTr0 m s = .ok x →
      x = s.x ∨ energy A b x < energy A b s.x := by
  induction m with
  | zero =>
    intro s _ _ x h
    unfold pyLoop at h
    cases h
    exact Or.inl rfl
  | succ m ih =>
    intro s hi hs x h
    unfold pyLoop at h
    by_cases hg : goOn tol atol rTr0 s.rTr
    · have hp := goOn_pos hg
      rw [if_pos hg, pyStep_eq, if_neg (by rw [not_or]; exact ⟨(curv_pos hA hs hp).ne', hp.ne'⟩)] at h
      simp only at h
      by_cases hm0 : m = 0
      · rw [if_pos hm0] at h; simp at h
      rw [if_neg hm0] at h
      have hlt : energy A b (adv A w s).x < energy A b s.x := by
        rw [energy_adv hA hi hs hp]
        have hc := curv_pos hA hs hp
        have : 0 < s.rTr ^ 2 / (s.d ⬝ᵥ A *ᵥ s.d) := by positivity
        linarith
      right
      rcases ih _ (inv_adv hi) (dir_adv hA hs hp) x h with h | h
      · rw [h]; exact hlt
      · exact h.trans hlt
    · rw [if_neg hg] at h
      cases h; exact Or.inl rfl

theorem jacobi_pos {A : Matrix (Fin n) (Fin n) K} (hA : SPD A) : PosW (some (jacobi A)) := by
  intro u hu i
  cases hu
  unfold jacobi
  have h := hA.pos (Pi.single i 1) (by
    intro h
    have := congrFun h i
    simp at this)
  simp at h
  rw [if_neg h.ne']
  exact h

/-! ## The properties -/

/-- How the start of the loop is chosen by `conjugate_gradient`. -/
def startOf (b : Vec n K) (x0 : Option (Vec n K)) (useC jac : Bool) : Vec n K := if useC || jac then b else x0.getD 0

/-- The norm in which `conjugate_gradient` measures residuals. -/
def normOf (A : Matrix (Fin n) (Fin n) K) (jac : Bool) : Option (Vec n K) := if jac then some (jacobi A) else none

theorem solve_py (A : Matrix (Fin n) (Fin n) K) (b : Vec n K) (x0 : Option (Vec n K)) (imax : ℕ) (tol atol : K) (jac : Bool) :
    solve A b x0 imax tol atol false jac = pySolve A (normOf A jac) b (startOf b x0 false jac) imax tol atol := by
  cases jac <;> rfl

theorem solve_c (A : Matrix (Fin n) (Fin n) K) (b : Vec n K) (x0 : Option (Vec n K)) (imax : ℕ) (hm : 2 ≤ imax) (tol atol : K) (jac : Bool) :
    solve A b x0 imax tol atol true jac =
      pyLoop A (normOf A jac) tol atol (cStart A (normOf A jac) b b).rTr (imax - 1) (cStart A (normOf A jac) b b) := by
  obtain ⟨m, rfl⟩ : ∃ m, imax = m + 2 := ⟨imax - 2, by omega⟩
  have h := loops_agree A (normOf A jac) tol atol (cStart A (normOf A jac) b b).rTr m (cStart A (normOf A jac) b b)
  have e : solve A b x0 (m + 2) tol atol true jac =
      match cLoop A (normOf A jac) tol atol (cStart A (normOf A jac) b b).rTr (m + 1) (cStart A (normOf A jac) b b) with
      | none => .breakdown
      | some (x, err) => if err = -1 then .notConverged else .ok x := rfl
  rw [e]
  have e2 : m + 2 - 1 = m + 1 := rfl
  rw [e2]
  generalize pyLoop A (normOf A jac) tol atol (cStart A (normOf A jac) b b).rTr (m + 1) (cStart A (normOf A jac) b b) = R at h
  cases R with
  | ok x => simp only at h; rw [h]; rfl
  | notConverged => simp only at h; obtain ⟨x, hx⟩ := h; rw [hx]; rfl
  | breakdown => simp only at h; rw [h]

/-- **C23.** A vector returned by `conjugate_gradient`, with any matrix and either implementation, with at least two iterations
allowed, satisfies the tolerances: its true residual is at most `tol` times that of the start vector or at most `atol`, in the
norm of the preconditioner. -/
theorem C23_tolerance (A : Matrix (Fin n) (Fin n) K) (b : Vec n K) (x0 : Option (Vec n K)) (imax : ℕ) (hm : 2 ≤ imax) (tol atol : K)
    (useC jac : Bool) (x : Vec n K) (h : solve A b x0 imax tol atol useC jac = .ok x) :
    resSq A (normOf A jac) b x ≤ tol ^ 2 * resSq A (normOf A jac) b (startOf b x0 useC jac) ∨ resSq A (normOf A jac) b x ≤ atol ^ 2 := by
  obtain ⟨m, rfl⟩ : ∃ m, imax = m + 2 := ⟨imax - 2, by omega⟩
  cases useC with
  | false =>
    rw [solve_py] at h
    have := pyLoop_ok m _ (inv_pyStart A (normOf A jac) b (startOf b x0 false jac)) x h
    unfold goOn at this
    rw [not_and_or, not_lt, not_lt] at this
    exact this
  | true =>
    rw [solve_c _ _ _ _ hm] at h
    have := pyLoop_ok m _ (inv_cStart A (normOf A jac) b b) x h
    unfold goOn at this
    rw [not_and_or, not_lt, not_lt, cStart_eq] at this
    exact this

/-- The sound combinations: all but the Python solver with preconditioner, see `C23_python_jacobi_diverges`. -/
def Sound (useC jac : Bool) : Prop := useC = true ∨ jac = false

theorem solve_sound (A : Matrix (Fin n) (Fin n) K) (b : Vec n K) (x0 : Option (Vec n K)) (imax : ℕ) (hm : 2 ≤ imax) (tol atol : K)
    {useC jac : Bool} (hs : Sound useC jac) :
    solve A b x0 imax tol atol useC jac = pyLoop A (normOf A jac) tol atol (cStart A (normOf A jac) b (startOf b x0 useC jac)).rTr (imax - 1)
      (cStart A (normOf A jac) b (startOf b x0 useC jac)) := by
  cases useC with
  | true => rw [solve_c _ _ _ _ hm]; rfl
  | false =>
    rcases hs with hs | hs
    · exact absurd hs (by decide)
    · subst hs
      rw [solve_py]
      unfold pySolve
      have : normOf A false = none := rfl
      rw [this, cStart_none]

theorem posW_normOf {A : Matrix (Fin n) (Fin n) K} (hA : SPD A) (jac : Bool) : PosW (normOf A jac) := by
  cases jac
  · intro u hu; exact absurd hu (by simp [normOf])
  · exact jacobi_pos hA

/-- **C23.** For a symmetric positive definite matrix of size `n` the solver neither raises nor divides by zero when at least
`n + 2` iterations are allowed, whatever the tolerances. -/
theorem C23_terminates {A : Matrix (Fin n) (Fin n) K} (hA : SPD A) (b : Vec n K) (x0 : Option (Vec n K)) (imax : ℕ) (hm : n + 2 ≤ imax)
    (tol atol : K) {useC jac : Bool} (hs : Sound useC jac) : ∃ x, solve A b x0 imax tol atol useC jac = .ok x := by
  rw [solve_sound A b x0 imax (by omega) tol atol hs]
  have hd := dir_cStart A (normOf A jac) b (startOf b x0 useC jac)
  obtain ⟨j, hj, hz⟩ := finite hA (iter A (normOf A jac) (cStart A (normOf A jac) b (startOf b x0 useC jac)))
    (fun k => iter_succ _ _ _ k) hd (by rw [show iter A (normOf A jac) (cStart A (normOf A jac) b (startOf b x0 useC jac)) 0 =
      cStart A (normOf A jac) b (startOf b x0 useC jac) from rfl, cStart_eq])
  exact pyLoop_spd hA (imax - 1) _ hd ⟨j, by omega, hz⟩

/-- **C23.** With both tolerances zero the vector returned solves the system exactly. -/
theorem C23_exact {A : Matrix (Fin n) (Fin n) K} (hA : SPD A) (b : Vec n K) (x0 : Option (Vec n K)) (imax : ℕ) (hm : n + 2 ≤ imax)
    {useC jac : Bool} (hs : Sound useC jac) : ∃ x, solve A b x0 imax 0 0 useC jac = .ok x ∧ A *ᵥ x = b := by
  obtain ⟨x, hx⟩ := C23_terminates hA b x0 imax hm 0 0 hs
  refine ⟨x, hx, ?_⟩
  have h := C23_tolerance A b x0 imax (by omega) 0 0 useC jac x hx
  have hle : resSq A (normOf A jac) b x ≤ 0 := by
    rcases h with h | h <;> simpa using h
  by_contra hne
  have := precond_pos (posW_normOf hA jac) (v := b - A *ᵥ x) (sub_ne_zero.mpr (fun h => hne h.symm))
  exact absurd hle (not_le.mpr this)

/-- **C23.** For a symmetric positive definite matrix the vector returned is the start vector or is nearer to the solution in the
energy norm. -/
theorem C23_energy {A : Matrix (Fin n) (Fin n) K} (hA : SPD A) (b y : Vec n K) (hy : A *ᵥ y = b) (x0 : Option (Vec n K)) (imax : ℕ)
    (hm : 2 ≤ imax) (tol atol : K) {useC jac : Bool} (hs : Sound useC jac) (x : Vec n K) (h : solve A b x0 imax tol atol useC jac = .ok x) :
    x = startOf b x0 useC jac ∨ dist2 A y x < dist2 A y (startOf b x0 useC jac) := by
  rw [solve_sound A b x0 imax hm tol atol hs] at h
  have := pyLoop_energy hA (imax - 1) _ (inv_cStart A (normOf A jac) b (startOf b x0 useC jac))
    (dir_cStart A (normOf A jac) b (startOf b x0 useC jac)) x h
  rw [dist2_energy hA b _ y hy, dist2_energy hA b _ y hy]
  rw [cStart_eq] at this
  rcases this with h | h
  · exact Or.inl h
  · right; linarith

/-- **C23.** Without preconditioner the C and the Python solver give the same outcome from the same start vector, when at least two
iterations are allowed. -/
theorem C23_c_agrees (A : Matrix (Fin n) (Fin n) K) (b : Vec n K) (imax : ℕ) (hm : 2 ≤ imax) (tol atol : K) (x0 : Option (Vec n K)) :
    solve A b x0 imax tol atol true false = solve A b (some b) imax tol atol false false := by
  rw [solve_sound A b x0 imax hm tol atol (Or.inl rfl), solve_sound A b (some b) imax hm tol atol (Or.inr rfl)]
  rfl

/-- **C23.** With at most one iteration allowed the Python solver returns the start vector unchecked, where the C solver raises. -/
theorem C23_one_iteration_unchecked (A : Matrix (Fin n) (Fin n) K) (b : Vec n K) (x0 : Option (Vec n K)) (imax : ℕ) (hm : imax ≤ 1)
    (tol atol : K) (jac : Bool) : solve A b x0 imax tol atol false jac = .ok (startOf b x0 false jac) ∧
      solve A b x0 imax tol atol true jac = .notConverged := by
  have : imax - 1 = 0 := by omega
  refine ⟨?_, ?_⟩
  · rw [solve_py]
    unfold pySolve
    rw [this]; rfl
  · unfold solve cSolve
    rw [this]; rfl

/-- The 1 x 1 system with matrix 1/4 and right hand side 1. -/
def quarter : Matrix (Fin 1) (Fin 1) K := fun _ _ => 1 / 4

/-- **C23.** The Python solver with Jacobi preconditioner fails on the system `x / 4 = 1`, however many iterations are allowed
(it starts from the residual instead of the preconditioned residual, and then diverges). -/
theorem C23_python_jacobi_diverges (imax : ℕ) (hm : 2 ≤ imax) (tol atol : K) (ht : tol ^ 2 < 1) (ha : atol ^ 2 < 1) (x0 : Option (Vec 1 K)) :
    SPD (quarter : Matrix (Fin 1) (Fin 1) K) ∧ solve quarter (1 : Vec 1 K) x0 imax tol atol false true = .notConverged ∧
      (3 ≤ imax → solve quarter (1 : Vec 1 K) x0 imax tol atol true true = .ok (fun _ => 4)) := by
  have hj : jacobi (quarter : Matrix (Fin 1) (Fin 1) K) = fun _ => 1 / 4 := by
    funext i; simp [jacobi, quarter]
  have hmul : ∀ v : Vec 1 K, (quarter : Matrix (Fin 1) (Fin 1) K) *ᵥ v = fun _ => 1 / 4 * v 0 := by
    intro v; funext i; simp [mulVec, dotProduct, quarter]
  have hdot : ∀ u v : Vec 1 K, u ⬝ᵥ v = u 0 * v 0 := by intro u v; simp [dotProduct]
  have hpre : ∀ v : Vec 1 K, precond (normOf quarter true) v = fun _ => 4 * v 0 := by
    intro v; funext i
    have hi : i = 0 := Subsingleton.elim _ _
    simp [normOf, precond, hj, hi]
  refine ⟨⟨?_, ?_⟩, ?_, ?_⟩
  · rfl
  · intro v hv
    have h0 : v 0 ≠ 0 := fun h => hv (funext (fun i => by rw [Subsingleton.elim i 0, h]; rfl))
    rw [hmul, hdot]
    have := mul_self_pos.mpr h0
    linarith
  · rw [solve_py]
    obtain ⟨m, rfl⟩ : ∃ m, imax = m + 2 := ⟨imax - 2, by omega⟩
    have key : ∀ (m : ℕ) (s : St 1 K) (c rTr0 : K), 1 ≤ c ^ 2 → 0 < rTr0 → s.r = (fun _ => c * (3 / 4)) → s.d = s.r → s.rTr = c ^ 2 * rTr0 → rTr0 = 9 / 4 →
        pyLoop quarter (normOf quarter true) tol atol rTr0 (m + 1) s = .notConverged := by
      intro m
      induction m with
      | zero =>
        intro s c rTr0 hc h0 hr hd hq hq0
        unfold pyLoop
        have hg : goOn tol atol rTr0 s.rTr := by
          rw [hq]
          subst hq0
          exact ⟨by nlinarith, by nlinarith⟩
        have hp := goOn_pos hg
        rw [if_pos hg, pyStep_eq, if_neg]
        · rfl
        · rw [not_or]
          refine ⟨?_, hp.ne'⟩
          rw [hmul, hdot, hd, hr]
          have : c ≠ 0 := by rintro rfl; norm_num at hc
          simp [this]
      | succ m ih =>
        intro s c rTr0 hc h0 hr hd hq hq0
        unfold pyLoop
        have hg : goOn tol atol rTr0 s.rTr := by
          rw [hq]
          subst hq0
          exact ⟨by nlinarith, by nlinarith⟩
        have hp := goOn_pos hg
        have hc0 : c ≠ 0 := by rintro rfl; norm_num at hc
        rw [if_pos hg, pyStep_eq, if_neg]
        · simp only
          rw [if_neg (by omega)]
          have er : (adv quarter (normOf quarter true) s).r = fun _ => (-3 * c) * (3 / 4) := by
            simp only [adv, hmul, hdot, hd, hr, hq, hq0]
            funext i
            simp
            field_simp
            ring
          have eq : (adv quarter (normOf quarter true) s).rTr = (-3 * c) ^ 2 * rTr0 := by
            have : (adv quarter (normOf quarter true) s).rTr = (adv quarter (normOf quarter true) s).r ⬝ᵥ precond (normOf quarter true) (adv quarter (normOf quarter true) s).r := rfl
            rw [this, er, hpre, hdot, hq0]; ring
          refine ih _ (-3 * c) rTr0 (by nlinarith) h0 er ?_ eq hq0
          have ed : (adv quarter (normOf quarter true) s).d = precond (normOf quarter true) (adv quarter (normOf quarter true) s).r +
              ((adv quarter (normOf quarter true) s).rTr / s.rTr) • s.d := rfl
          rw [ed, eq, hpre, er, hd, hr, hq]
          funext i
          simp
          field_simp
          ring
        · rw [not_or]
          refine ⟨?_, hp.ne'⟩
          rw [hmul, hdot, hd, hr]
          simp [hc0]
    have hr0 : (pyStart quarter (normOf quarter true) (1 : Vec 1 K) (startOf 1 x0 false true)).r = fun _ => 1 * (3 / 4) := by
      funext i
      simp [pyStart, startOf, hmul]
      norm_num
    have hq0 : (pyStart quarter (normOf quarter true) (1 : Vec 1 K) (startOf 1 x0 false true)).rTr = 9 / 4 := by
      have : (pyStart quarter (normOf quarter true) (1 : Vec 1 K) (startOf 1 x0 false true)).rTr =
        (pyStart quarter (normOf quarter true) (1 : Vec 1 K) (startOf 1 x0 false true)).r ⬝ᵥ
          precond (normOf quarter true) (pyStart quarter (normOf quarter true) (1 : Vec 1 K) (startOf 1 x0 false true)).r := rfl
      rw [this, hr0, hpre, hdot]; norm_num
    exact key m _ 1 _ (by norm_num) (by rw [hq0]; norm_num) hr0 rfl (by ring) hq0
  · intro h3
    rw [solve_c _ _ _ _ hm]
    obtain ⟨m, rfl⟩ : ∃ m, imax = m + 3 := ⟨imax - 3, by omega⟩
    have es : cStart quarter (normOf quarter true) (1 : Vec 1 K) 1 = ⟨1, fun _ => 3 / 4, fun _ => 3, 9 / 4⟩ := by
      rw [cStart_eq]
      have : (1 : Vec 1 K) - quarter *ᵥ 1 = fun _ => 3 / 4 := by funext i; simp [hmul]; norm_num
      rw [this, hpre, hdot]
      norm_num
    rw [es]
    have hg : goOn tol atol (9 / 4) (9 / 4 : K) := ⟨by nlinarith, by nlinarith⟩
    have e1 : m + 3 - 1 = (m + 1) + 1 := rfl
    rw [e1]
    unfold pyLoop
    rw [if_pos hg, pyStep_eq, if_neg]
    · simp only
      rw [if_neg (by omega)]
      have ea : adv quarter (normOf quarter true) (⟨1, fun _ => 3 / 4, fun _ => 3, 9 / 4⟩ : St 1 K) = ⟨fun _ => 4, 0, 0, 0⟩ := by
        have er : ((fun _ => 3 / 4 : Vec 1 K) - ((9 / 4 : K) / (3 * (1 / 4 * 3))) • (fun _ => 1 / 4 * 3 : Vec 1 K)) = 0 := by
          funext i; simp; norm_num
        unfold adv
        simp only [hmul, hdot, er, hpre]
        congr 1
        · funext i; simp; norm_num
        · funext i; simp
        · simp
      rw [ea]
      unfold pyLoop
      rw [if_neg]
      intro h
      exact absurd (goOn_pos h) (lt_irrefl _)
    · rw [not_or, hmul, hdot]
      norm_num

/-- **C23.** With several right hand sides the C solver reports only on the last one: here the first column has not converged and
its unfinished vector is returned. -/
theorem C23_only_last_column_checked : ∃ (A : Matrix (Fin 2) (Fin 2) ℚ) (xs : List (Vec 2 ℚ)), SPD A ∧
    solveColumnsC A [(![1, 1], 0), (0, 0)] 2 0 0 false = some xs ∧ A *ᵥ (xs.getD 0 0) ≠ ![1, 1] ∧
      solveColumnsC A [(![1, 1], 0)] 2 0 0 false = none := by
  refine ⟨!![1, 0; 0, 3], [![1 / 2, 1 / 2], 0], ⟨?_, ?_⟩, ?_, ?_, ?_⟩
  · ext i j; fin_cases i <;> fin_cases j <;> rfl
  · intro v hv
    have e : v ⬝ᵥ !![1, 0; 0, 3] *ᵥ v = v 0 * v 0 + 3 * (v 1 * v 1) := by
      simp [dotProduct, mulVec, Fin.sum_univ_two]; ring
    rw [e]
    by_cases h0 : v 0 = 0
    · have h1 : v 1 ≠ 0 := by
        intro h1
        apply hv
        funext i
        fin_cases i
        · exact h0
        · exact h1
      have := mul_self_pos.mpr h1
      have := mul_self_nonneg (v 0)
      linarith
    · have := mul_self_pos.mpr h0
      have := mul_self_nonneg (v 1)
      linarith
  · decide +kernel
  · decide +kernel
  · decide +kernel

/-- **C23.** For a solvable system whose matrix is not definite a division by zero is possible. -/
theorem C23_indefinite_breaks_down : ∃ (A : Matrix (Fin 2) (Fin 2) ℚ) (b x : Vec 2 ℚ), Aᵀ = A ∧ A *ᵥ x = b ∧
    ∀ useC, solve A b (some b) 100 0 0 useC false = .breakdown := by
  refine ⟨!![2, 0; 0, -2], ![3, 1], ![3 / 2, -1 / 2], ?_, ?_, ?_⟩
  · ext i j; fin_cases i <;> fin_cases j <;> rfl
  · decide +kernel
  · intro useC
    cases useC
    · decide +kernel
    · decide +kernel

/-! ## The hypotheses can be met -/

/-- A definite 2 x 2 matrix. -/
def sampleA : Matrix (Fin 2) (Fin 2) ℚ := !![2, 1; 1, 3]

theorem sampleA_spd : SPD sampleA := by
  refine ⟨?_, fun v hv => ?_⟩
  · ext i j; fin_cases i <;> fin_cases j <;> rfl
  · have e : v ⬝ᵥ sampleA *ᵥ v = v 0 * v 0 + (v 0 + v 1) * (v 0 + v 1) + 2 * (v 1 * v 1) := by
      simp [sampleA, dotProduct, mulVec, Fin.sum_univ_two]; ring
    rw [e]
    by_cases h0 : v 0 = 0
    · have h1 : v 1 ≠ 0 := by
        intro h1
        apply hv
        funext i
        fin_cases i
        · exact h0
        · exact h1
      have := mul_self_pos.mpr h1
      have := mul_self_nonneg (v 0)
      have := mul_self_nonneg (v 0 + v 1)
      linarith
    · have := mul_self_pos.mpr h0
      have := mul_self_nonneg (v 1)
      have := mul_self_nonneg (v 0 + v 1)
      linarith

example : sampleA *ᵥ ![1, 1] = ![3, 4] := by decide +kernel

/-- Outcome as a list, to be compared. -/
def Res.toList : Res n K → Option (List K)
  | .ok x => some (List.ofFn x)
  | _ => none

example : (solve sampleA ![3, 4] none 4 0 0 false false).toList = some [1, 1] := by decide +kernel

example : (solve sampleA ![3, 4] none 4 0 0 true true).toList = some [1, 1] := by decide +kernel

example : solve sampleA ![3, 4] none 3 0 0 false false = .notConverged := by decide +kernel

end Verif.CG
