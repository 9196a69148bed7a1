import Verif.Kv.Props

/-!
# C76: elliptic equations; and what goes wrong with unequal triangles and dry triangles
-/

namespace Verif.Kv

open Verif.CG Matrix

variable {n : ℕ}

/-! ## Solving with a negative definite matrix -/

/-- State with residual and direction turned round. -/
def turn (s : St n ℝ) : St n ℝ := ⟨s.x, -s.r, -s.d, s.rTr⟩

theorem pyStep_turn (A : Matrix (Fin n) (Fin n) ℝ) (s : St n ℝ) : pyStep (-A) none (turn s) = (pyStep A none s).map turn := by
  have hq : -s.d ⬝ᵥ -A *ᵥ -s.d = -(s.d ⬝ᵥ A *ᵥ s.d) := by
    rw [neg_mulVec, mulVec_neg, neg_neg, neg_dotProduct]
  have hc : (-s.d ⬝ᵥ -A *ᵥ -s.d = 0 ∨ s.rTr = 0) ↔ (s.d ⬝ᵥ A *ᵥ s.d = 0 ∨ s.rTr = 0) := by rw [hq, neg_eq_zero]
  rw [pyStep_eq, pyStep_eq]
  by_cases h : s.d ⬝ᵥ A *ᵥ s.d = 0 ∨ s.rTr = 0
  · rw [if_pos h, if_pos]
    · rfl
    · exact hc.mpr h
  · rw [if_neg h, if_neg]
    · simp only [Option.map_some, Option.some.injEq]
      have hr : -s.r - (s.rTr / (-s.d ⬝ᵥ -A *ᵥ -s.d)) • (-A *ᵥ -s.d) = -(s.r - (s.rTr / (s.d ⬝ᵥ A *ᵥ s.d)) • (A *ᵥ s.d)) := by
        rw [hq, neg_mulVec, mulVec_neg, neg_neg, div_neg, neg_smul]
        abel
      have hx : s.x + (s.rTr / (-s.d ⬝ᵥ -A *ᵥ -s.d)) • -s.d = s.x + (s.rTr / (s.d ⬝ᵥ A *ᵥ s.d)) • s.d := by
        rw [hq, div_neg, neg_smul, smul_neg, neg_neg]
      unfold adv turn precond
      simp only
      rw [hr, hx, neg_dotProduct, dotProduct_neg, neg_neg]
      congr 1
      rw [smul_neg]
      abel
    · exact fun h' => h (hc.mp h')

theorem pyLoop_turn (A : Matrix (Fin n) (Fin n) ℝ) (tol atol rTr0 : ℝ) (m : ℕ) : ∀ s : St n ℝ,
    pyLoop (-A) none tol atol rTr0 m (turn s) = pyLoop A none tol atol rTr0 m s := by
  induction m with
  | zero => intro s; rfl
  | succ m ih =>
    intro s
    unfold pyLoop
    rw [pyStep_turn]
    by_cases h : goOn tol atol rTr0 s.rTr
    · rw [if_pos h, if_pos (show goOn tol atol rTr0 (turn s).rTr from h)]
      cases pyStep A none s with
      | none => rfl
      | some s' =>
        simp only [Option.map_some]
        split_ifs
        · rfl
        · exact ih s'
    · rw [if_neg h, if_neg (show ¬ goOn tol atol rTr0 (turn s).rTr from h)]
      rfl

/-- Changing the sign of the matrix and the right hand side does not change the answer. -/
theorem solve_neg (A : Matrix (Fin n) (Fin n) ℝ) (b : Fin n → ℝ) (x0 : Option (Fin n → ℝ)) (imax : ℕ) (tol atol : ℝ) :
    solve (-A) (-b) x0 imax tol atol false false = solve A b x0 imax tol atol false false := by
  rw [solve_py, solve_py]
  have hn : ∀ B : Matrix (Fin n) (Fin n) ℝ, normOf B false = none := fun _ => rfl
  rw [hn, hn]
  unfold pySolve
  have : pyStart (-A) none (-b) (startOf (-b) x0 false false) = turn (pyStart A none b (startOf b x0 false false)) := by
    unfold pyStart turn precond startOf
    have e : -b - -A *ᵥ x0.getD 0 = -(b - A *ᵥ x0.getD 0) := by
      rw [neg_mulVec]
      abel
    simp only [Bool.or_self, Bool.false_eq_true, if_false]
    rw [e, neg_dotProduct, dotProduct_neg, neg_neg]
  rw [this, pyLoop_turn]
  rfl

/-! ## C76 -/

theorem dot_elliptic {o : Op n} (h : o.mesh.Conforming n) {a : ℝ} (ha : o.Even a) (u v : Fin n → ℝ) :
    v ⬝ᵥ o.ellipticMul u = 1 / a * ∑ i, v i * inflow o.mesh o.d o.dB u (fun _ => 0) i := by
  have := dot_parabolic h ha 1 u v
  rw [parabolic_eq, one_smul, dotProduct_sub] at this
  linarith

/-- If the form vanishes then nothing differs between neighbours and nothing is left at the boundary. -/
theorem form_zero {M : Mesh} (h : M.Conforming n) {d : Fin n → ℝ} {dB : ℕ → ℝ} (hd : ∀ i, 0 < d i) (hB : ∀ k, 0 ≤ dB k) {u : Fin n → ℝ}
    (hz : ∑ i, u i * inflow M d dB u (fun _ => 0) i = 0) (i : Fin n) (e : Fin 3) : (M.nb i e < 0 → u i = 0) ∧
      ∀ j : Fin n, M.nb i e = (j : ℕ) → u i = u j := by
  rw [form_eq h dB hd] at hz
  have p1 : ∀ i j, 0 ≤ pair M d dB i j * ((u j - u i) * (u j - u i)) := fun i j =>
    mul_nonneg (pair_nonneg h (fun i => (hd i).le) hB i j) (mul_self_nonneg _)
  have p2 : ∀ (i : Fin n) e, 0 ≤ (if M.nb i e < 0 then conductance M d dB i e * (u i * u i) else 0) := by
    intro i e
    split_ifs
    · exact mul_nonneg (conductance_nonneg h (fun i => (hd i).le) hB i e) (mul_self_nonneg _)
    · exact le_rfl
  have q1 : 0 ≤ ∑ i, ∑ j, pair M d dB i j * ((u j - u i) * (u j - u i)) := Finset.sum_nonneg fun i _ => Finset.sum_nonneg fun j _ => p1 i j
  have q2 : 0 ≤ ∑ i : Fin n, ∑ e, if M.nb i e < 0 then conductance M d dB i e * (u i * u i) else 0 :=
    Finset.sum_nonneg fun i _ => Finset.sum_nonneg fun e _ => p2 i e
  have z1 : ∑ i, ∑ j, pair M d dB i j * ((u j - u i) * (u j - u i)) = 0 := by linarith
  have z2 : ∑ i : Fin n, ∑ e, (if M.nb i e < 0 then conductance M d dB i e * (u i * u i) else 0) = 0 := by linarith
  have hc := conductance_pos h hd hB i e
  constructor
  · intro hneg
    have := (Finset.sum_eq_zero_iff_of_nonneg fun i _ => Finset.sum_nonneg fun e _ => p2 i e).mp z2 i (Finset.mem_univ i)
    have := (Finset.sum_eq_zero_iff_of_nonneg fun e _ => p2 i e).mp this e (Finset.mem_univ e)
    rw [if_pos hneg] at this
    rcases mul_eq_zero.mp this with h1 | h1
    · exact absurd h1 hc.ne'
    · exact mul_self_eq_zero.mp h1
  · intro j hj
    have := (Finset.sum_eq_zero_iff_of_nonneg fun i _ => Finset.sum_nonneg fun j _ => p1 i j).mp z1 i (Finset.mem_univ i)
    have := (Finset.sum_eq_zero_iff_of_nonneg fun j _ => p1 i j).mp this j (Finset.mem_univ j)
    rcases mul_eq_zero.mp this with h1 | h1
    · have h2 : 0 < pair M d dB i j := by
        unfold pair
        refine lt_of_lt_of_le hc ?_
        have := Finset.single_le_sum (f := fun e => if M.nb i e = (j : ℕ) then conductance M d dB i e else 0) (fun e _ => by
          split_ifs
          · exact conductance_nonneg h (fun i => (hd i).le) hB i e
          · exact le_rfl) (Finset.mem_univ e)
        rw [if_pos hj] at this
        exact this
      exact absurd h1 h2.ne'
    · have := mul_self_eq_zero.mp h1
      linarith

/-- **C76.** If the diffusivity is positive, triangles have one size and each is linked to the boundary, then minus the elliptic matrix is
symmetric and positive definite. -/
theorem C76_definite {o : Op n} (h : o.mesh.Conforming n) {a : ℝ} (ha : o.Even a) (hd : ∀ i, 0 < o.d i) (hB : ∀ k, 0 ≤ o.dB k)
    (hl : ∀ i : Fin n, Linked o.mesh n i) : SPD (-matrixOf o.ellipticMul) := by
  constructor
  · apply symm_of_form
    intro u v
    rw [neg_mulVec, neg_mulVec, dotProduct_neg, dotProduct_neg, elliptic_matrix h, elliptic_matrix h, dot_elliptic h ha, dot_elliptic h ha,
      form_symm h o.dB hd]
  · intro v hv
    rw [neg_mulVec, dotProduct_neg, elliptic_matrix h, dot_elliptic h ha]
    obtain ⟨i, hi⟩ : ∃ i, v i ≠ 0 := by
      by_contra hn
      push Not at hn
      exact hv (funext hn)
    have h3 : 0 < 1 / a := div_pos one_pos (even_pos h ha i)
    have h4 : ∑ i, v i * inflow o.mesh o.d o.dB v (fun _ => 0) i ≠ 0 := by
      intro hz
      have hall : ∀ k, Linked o.mesh n k → ∀ hk : k < n, v ⟨k, hk⟩ = 0 := by
        intro k hk
        induction hk with
        | edge i e hi hneg => intro _; exact (form_zero h hd hB hz ⟨i, hi⟩ e).1 hneg
        | step i j e hi hij hj ih =>
          intro _
          have hjn : j < n := by
            obtain ⟨j', hj', he, -⟩ := h.inner i hi e (by omega)
            have : j = j' := by omega
            omega
          rw [(form_zero h hd hB hz ⟨i, hi⟩ e).2 ⟨j, hjn⟩ hij]
          exact ih hjn
      exact hi (hall i (hl i) i.2)
    have h5 : ∑ i, v i * inflow o.mesh o.d o.dB v (fun _ => 0) i < 0 := lt_of_le_of_ne (form_nonpos h hd hB v) h4
    have := mul_neg_of_pos_of_neg h3 h5
    linarith

/-- What is left of the elliptic equation `div (d grad x) = f`. -/
noncomputable def remains (o : Op n) (a : ℝ) (b : ℕ → ℝ) (f x : Fin n → ℝ) (i : Fin n) : ℝ := f i - inflow o.mesh o.d o.dB x b i / a

theorem remains_eq {o : Op n} (h : o.mesh.Conforming n) {a : ℝ} (ha : o.Even a) (b : ℕ → ℝ) (f x : Fin n → ℝ) :
    (fun i => f i - o.boundaryTerm b i) - matrixOf o.ellipticMul *ᵥ x = remains o a b f x := by
  funext i
  rw [elliptic_matrix h]
  unfold remains
  rw [← even_eq h ha]
  simp only [Pi.sub_apply]
  ring

/-- **C76.** Whatever a solve returns satisfies the elliptic equation with its boundary values, up to the tolerances. -/
theorem C76_solution {o : Op n} (h : o.mesh.Conforming n) {a : ℝ} (ha : o.Even a) {u : Fin n → ℝ} {b : ℕ → ℝ} {f x : Fin n → ℝ} {imax : ℕ}
    (hm : 2 ≤ imax) {tol atol : ℝ} (hx : o.ellipticSolve u b f imax tol atol = .ok x) :
    sq (remains o a b f x) ≤ tol ^ 2 * sq (remains o a b f u) ∨ sq (remains o a b f x) ≤ atol ^ 2 := by
  have := C23_tolerance _ _ _ _ hm _ _ _ _ x hx
  unfold resSq normOf startOf precond at this
  simp only [Bool.false_eq_true, if_false, Bool.or_self, Option.getD_some] at this
  rw [remains_eq h ha, remains_eq h ha, dot_sq, dot_sq] at this
  exact this

/-- **C76.** It answers, although the matrix is negative definite. -/
theorem C76_answers {o : Op n} (h : o.mesh.Conforming n) {a : ℝ} (ha : o.Even a) (hd : ∀ i, 0 < o.d i) (hB : ∀ k, 0 ≤ o.dB k)
    (hl : ∀ i : Fin n, Linked o.mesh n i) (u : Fin n → ℝ) (b : ℕ → ℝ) (f : Fin n → ℝ) {imax : ℕ} (hm : n + 2 ≤ imax) (tol atol : ℝ) :
    ∃ x, o.ellipticSolve u b f imax tol atol = .ok x := by
  unfold Op.ellipticSolve
  rw [← solve_neg]
  exact C23_terminates (C76_definite h ha hd hB hl) _ _ _ hm _ _ (Or.inr rfl)

/-- **C76.** The equation has one solution. -/
theorem C76_unique {o : Op n} (h : o.mesh.Conforming n) {a : ℝ} (ha : o.Even a) (hd : ∀ i, 0 < o.d i) (hB : ∀ k, 0 ≤ o.dB k)
    (hl : ∀ i : Fin n, Linked o.mesh n i) (b : ℕ → ℝ) (f : Fin n → ℝ) : ∃! x, ∀ i, inflow o.mesh o.d o.dB x b i / a = f i := by
  obtain ⟨x, -, hx⟩ := C23_exact (C76_definite h ha hd hB hl) (-fun i => f i - o.boundaryTerm b i) none (n + 2) le_rfl (useC := false) (jac := false) (Or.inr rfl)
  have key : ∀ y, (∀ i, inflow o.mesh o.d o.dB y b i / a = f i) ↔ remains o a b f y = 0 := by
    intro y
    constructor
    · intro hy
      funext i
      unfold remains
      rw [hy i, sub_self]
      rfl
    · intro hy i
      have := congrFun hy i
      unfold remains at this
      simp only [Pi.zero_apply] at this
      linarith
  refine ⟨x, (key x).mpr ?_, fun y hy => ?_⟩
  · rw [← remains_eq h ha]
    rw [neg_mulVec, neg_inj] at hx
    rw [hx, sub_self]
  · have hy' := (key y).mp hy
    rw [← remains_eq h ha] at hy'
    by_contra hne
    have h1 := (C76_definite h ha hd hB hl).pos (y - x) (sub_ne_zero.mpr hne)
    rw [neg_mulVec, neg_inj] at hx
    rw [neg_mulVec, mulVec_sub, hx, ← sub_eq_zero.mp hy', sub_self, neg_zero, dotProduct_zero] at h1
    exact lt_irrefl 0 h1

theorem elliptic_upper {o : Op n} (h : o.mesh.Conforming n) {a : ℝ} (ha : o.Even a) (hd : ∀ i, 0 < o.d i) (hB : ∀ k, 0 ≤ o.dB k)
    (hl : ∀ i : Fin n, Linked o.mesh n i) {b : ℕ → ℝ} {x : Fin n → ℝ} (hx : ∀ i, inflow o.mesh o.d o.dB x b i / a = 0) {hi : ℝ}
    (hb : ∀ k, b k ≤ hi) (i : Fin n) : x i ≤ hi := by
  obtain ⟨m, -, hm⟩ := Finset.exists_max_image Finset.univ x ⟨i, Finset.mem_univ i⟩
  refine (hm i (Finset.mem_univ i)).trans ?_
  by_contra hgt
  push Not at hgt
  have hmax : ∀ j, x j ≤ x m := fun j => hm j (Finset.mem_univ j)
  have hb' : ∀ k, b k ≤ x m := fun k => (hb k).trans hgt.le
  have hstep : ∀ k : Fin n, x k = x m → ∀ e, value x b (o.mesh.nb k e) = x m := by
    intro k hk e
    have h0 := hx k
    rw [div_eq_zero_iff] at h0
    have h1 : inflow o.mesh o.d o.dB x b k = 0 := by
      rcases h0 with h0 | h0
      · exact h0
      · exact absurd h0 (even_pos h ha k).ne'
    unfold inflow at h1
    rw [if_neg (not_le.mpr (hd k))] at h1
    have h2 : ∀ e, conductance o.mesh o.d o.dB k e * (value x b (o.mesh.nb k e) - x k) ≤ 0 := fun e =>
      mul_nonpos_of_nonneg_of_nonpos (conductance_nonneg h (fun i => (hd i).le) hB k e) (by rw [hk]; linarith [value_le hmax hb' h k e])
    have h3 := (Finset.sum_eq_zero_iff_of_nonpos fun e _ => h2 e).mp h1 e (Finset.mem_univ e)
    rcases mul_eq_zero.mp h3 with h4 | h4
    · exact absurd h4 (conductance_pos h hd hB k e).ne'
    · rw [← hk]; linarith
  have hall : ∀ k, Linked o.mesh n k → ∀ hk : k < n, x ⟨k, hk⟩ ≠ x m := by
    intro k hk
    induction hk with
    | edge i e hi hneg =>
      intro _ heq
      have := hstep ⟨i, hi⟩ heq e
      unfold value at this
      rw [if_pos hneg] at this
      linarith [hb (-(o.mesh.nb i e) - 1).toNat]
    | step i j e hi hij hj ih =>
      intro _ heq
      have hjn : j < n := by
        obtain ⟨j', hj', he, -⟩ := h.inner i hi e (by omega)
        have : j = j' := by omega
        omega
      have := hstep ⟨i, hi⟩ heq e
      rw [show o.mesh.nb (⟨i, hi⟩ : Fin n) e = (((⟨j, hjn⟩ : Fin n) : ℕ) : ℤ) from hij, value_inner] at this
      exact ih hjn this
  exact hall m (hl m) m.2 rfl

/-- **C76.** Without source the solution lies between the least and the greatest boundary value. -/
theorem C76_between {o : Op n} (h : o.mesh.Conforming n) {a : ℝ} (ha : o.Even a) (hd : ∀ i, 0 < o.d i) (hB : ∀ k, 0 ≤ o.dB k)
    (hl : ∀ i : Fin n, Linked o.mesh n i) {b : ℕ → ℝ} {x : Fin n → ℝ} (hx : ∀ i, inflow o.mesh o.d o.dB x b i / a = 0) {lo hi : ℝ}
    (hb : ∀ k, lo ≤ b k ∧ b k ≤ hi) (i : Fin n) : lo ≤ x i ∧ x i ≤ hi := by
  refine ⟨?_, elliptic_upper h ha hd hB hl hx (fun k => (hb k).2) i⟩
  have := elliptic_upper h ha hd hB hl (x := fun i => -x i) (b := fun k => -b k) (hi := -lo)
    (fun i => by rw [inflow_neg, neg_div, hx i, neg_zero]) (fun k => neg_le_neg (hb k).1) i
  linarith

/-! ## Disagreements -/

/-- The matrix and right hand side of a step, with areas in use: the inflow is taken of values divided by areas, and the boundary term is divided by
the area afterwards. -/
theorem areas_eq {o : Op n} (h : o.mesh.Conforming n) (hu : o.useAreas = true) (hd : ∀ i, 0 < o.d i) (c : ℝ) (i : Fin n) :
    o.ellipticMul (fun _ => c) i + o.boundaryTerm (fun _ => c) i =
      c * ∑ j, pair o.mesh o.d o.dB i j * (1 / o.mesh.area j - 1 / o.mesh.area i) := by
  rw [elliptic_eq h]
  unfold Op.boundaryTerm
  have hs : ∀ v : Fin n → ℝ, o.scale v = fun i : Fin n => 1 / o.mesh.area i * v i := by
    intro v
    funext i
    unfold Op.scale
    rw [if_pos hu]
  rw [hs, hs]
  simp only
  rw [apply_eq h, inflow_pairs h _ _ _ (hd i), inflow_pairs h _ _ _ (hd i)]
  simp only [sub_zero, mul_zero, Finset.sum_const_zero, zero_add]
  have h1 : ∑ j, pair o.mesh o.d o.dB i j * (1 / o.mesh.area j * c - 1 / o.mesh.area i * c) =
      c * ∑ j, pair o.mesh o.d o.dB i j * (1 / o.mesh.area j - 1 / o.mesh.area i) := by
    rw [Finset.mul_sum]
    exact Finset.sum_congr rfl fun j _ => by ring
  have h2 : outer o.mesh o.d o.dB (fun i : Fin n => 1 / o.mesh.area i * c) (fun _ => 0) i =
      -(1 / o.mesh.area i * outer o.mesh o.d o.dB (fun _ => 0) (fun _ => c) i) := by
    unfold outer
    rw [Finset.mul_sum, ← Finset.sum_neg_distrib]
    refine Finset.sum_congr rfl fun e _ => ?_
    split_ifs <;> ring
  rw [h1, h2]
  ring

/-- **C75, disagreement.** With areas in use, as they are by default, a uniform flow solves the system if and only if neighbouring triangles have equal
areas: the matrix is multiplied by the inverse areas from the wrong side. -/
theorem C75_uniform_iff_equal_areas {o : Op n} (h : o.mesh.Conforming n) (hu : o.useAreas = true) (hd : ∀ i, 0 < o.d i) (hB : ∀ k, 0 ≤ o.dB k)
    {dt : ℝ} (hdt : dt ≠ 0) {c : ℝ} (hc : c ≠ 0) :
    (matrixOf (o.parabolicMul dt) *ᵥ (fun _ => c) = fun i => c + dt * o.boundaryTerm (fun _ => c) i) ↔
      ∀ (i j : Fin n) (e : Fin 3), o.mesh.nb i e = (j : ℕ) → o.mesh.area i = o.mesh.area j := by
  rw [parabolic_matrix h]
  have h1 : (o.parabolicMul dt (fun _ => c) = fun i => c + dt * o.boundaryTerm (fun _ => c) i) ↔
      ∀ i, ∑ j, pair o.mesh o.d o.dB i j * (1 / o.mesh.area j - 1 / o.mesh.area i) = 0 := by
    rw [funext_iff]
    refine forall_congr' fun i => ?_
    have := areas_eq h hu hd c i
    rw [parabolic_eq]
    simp only [Pi.sub_apply, Pi.smul_apply, smul_eq_mul]
    constructor
    · intro heq
      have h2 : dt * (c * ∑ j, pair o.mesh o.d o.dB i j * (1 / o.mesh.area j - 1 / o.mesh.area i)) = 0 := by
        rw [← this]
        linarith
      rcases mul_eq_zero.mp h2 with h3 | h3
      · exact absurd h3 hdt
      · rcases mul_eq_zero.mp h3 with h4 | h4
        · exact absurd h4 hc
        · exact h4
    · intro hz
      rw [hz, mul_zero] at this
      rw [show o.ellipticMul (fun _ => c) i = -o.boundaryTerm (fun _ => c) i by linarith]
      ring
  rw [h1]
  constructor
  · intro hz i j e hij
    have h2 : ∑ i : Fin n, 1 / o.mesh.area i * ∑ j, pair o.mesh o.d o.dB i j * (1 / o.mesh.area j - 1 / o.mesh.area i) = 0 := by
      refine Finset.sum_eq_zero fun i _ => ?_
      rw [hz i, mul_zero]
    rw [by_parts (pair_symm h o.d o.dB) (fun i : Fin n => 1 / o.mesh.area i) (fun i : Fin n => 1 / o.mesh.area i)] at h2
    have p1 : ∀ i j : Fin n, 0 ≤ pair o.mesh o.d o.dB i j * ((1 / o.mesh.area j - 1 / o.mesh.area i) * (1 / o.mesh.area j - 1 / o.mesh.area i)) :=
      fun i j => mul_nonneg (pair_nonneg h (fun i => (hd i).le) hB i j) (mul_self_nonneg _)
    have h3 : ∑ i : Fin n, ∑ j : Fin n, pair o.mesh o.d o.dB i j *
        ((1 / o.mesh.area j - 1 / o.mesh.area i) * (1 / o.mesh.area j - 1 / o.mesh.area i)) = 0 := by linarith
    have h4 := (Finset.sum_eq_zero_iff_of_nonneg fun i _ => Finset.sum_nonneg fun j _ => p1 i j).mp h3 i (Finset.mem_univ i)
    have h5 := (Finset.sum_eq_zero_iff_of_nonneg fun j _ => p1 i j).mp h4 j (Finset.mem_univ j)
    have hpp : 0 < pair o.mesh o.d o.dB i j := by
      unfold pair
      refine lt_of_lt_of_le (conductance_pos h hd hB i e) ?_
      have := Finset.single_le_sum (f := fun e => if o.mesh.nb i e = (j : ℕ) then conductance o.mesh o.d o.dB i e else 0) (fun e _ => by
        split_ifs
        · exact conductance_nonneg h (fun i => (hd i).le) hB i e
        · exact le_rfl) (Finset.mem_univ e)
      rw [if_pos hij] at this
      exact this
    rcases mul_eq_zero.mp h5 with h6 | h6
    · exact absurd h6 hpp.ne'
    · have h7 := sub_eq_zero.mp (mul_self_eq_zero.mp h6)
      rw [one_div, one_div, inv_inj] at h7
      exact h7.symm
  · intro he i
    refine Finset.sum_eq_zero fun j _ => ?_
    by_cases hij : ∃ e, o.mesh.nb i e = (j : ℕ)
    · obtain ⟨e, hij⟩ := hij
      rw [he i j e hij, sub_self, mul_zero]
    · push Not at hij
      have : pair o.mesh o.d o.dB i j = 0 := Finset.sum_eq_zero fun e _ => if_neg (hij e)
      rw [this, zero_mul]

theorem inflow_single {M : Mesh} (h : M.Conforming n) (d : Fin n → ℝ) (dB : ℕ → ℝ) {i j : Fin n} (hij : i ≠ j) (hd : 0 < d i) :
    inflow M d dB (Pi.single j 1) (fun _ => 0) i = pair M d dB i j := by
  rw [inflow_pairs h _ _ _ hd, Finset.sum_eq_single j]
  · have : outer M d dB (Pi.single j 1) (fun _ => 0) i = 0 := by
      unfold outer
      refine Finset.sum_eq_zero fun e _ => ?_
      rw [Pi.single_eq_of_ne hij, sub_self, mul_zero, ite_self]
    rw [this, Pi.single_eq_same, Pi.single_eq_of_ne hij]
    ring
  · intro k _ hk
    rw [Pi.single_eq_of_ne hk, Pi.single_eq_of_ne hij]
    ring
  · intro hn
    exact absurd (Finset.mem_univ j) hn

/-- **C75, disagreement.** Where a triangle with diffusivity adjoins one without, as at every shore with the default diffusivity, the matrix handed to
the conjugate gradient method is not symmetric: the wet triangle exchanges with the dry one but not the dry one with the wet. -/
theorem C75_not_symmetric_at_shore {o : Op n} (h : o.mesh.Conforming n) {a : ℝ} (ha : o.Even a) {i j : Fin n} {e : Fin 3} (hij : o.mesh.nb i e = (j : ℕ))
    (hi : 0 < o.d i) (hj : o.d j = 0) {dt : ℝ} (hdt : 0 < dt) : (matrixOf (o.parabolicMul dt))ᵀ ≠ matrixOf (o.parabolicMul dt) := by
  have hne : i ≠ j := by
    rintro rfl
    obtain ⟨j', -, h1, h2, -⟩ := h.inner i i.2 e (by omega)
    omega
  have hbt : ∀ k, o.boundaryTerm (fun _ => 0) k = 0 := by
    intro k
    unfold Op.boundaryTerm Op.scale
    rw [apply_eq h]
    have : inflow o.mesh o.d o.dB (fun _ : Fin n => 0) (fun _ => 0) k = 0 := by
      have := inflow_smul o.mesh o.d o.dB 0 (fun _ : Fin n => 0) (fun _ => 0) k
      simpa using this
    rw [this]
    simp
  have hel : ∀ u k, o.ellipticMul u k = inflow o.mesh o.d o.dB u (fun _ => 0) k / a := by
    intro u k
    have := even_eq h ha u (fun _ => 0) k
    rwa [hbt, add_zero] at this
  intro hs
  have h1 := congrFun (congrFun hs i) j
  have e1 : (matrixOf (o.parabolicMul dt))ᵀ i j = 0 := by
    show o.parabolicMul dt (Pi.single i 1) j = 0
    rw [parabolic_eq]
    simp only [Pi.sub_apply, Pi.smul_apply, smul_eq_mul]
    rw [hel]
    unfold inflow
    rw [if_pos hj.le, Pi.single_eq_of_ne hne.symm]
    simp
  have e2 : matrixOf (o.parabolicMul dt) i j = -(dt * (pair o.mesh o.d o.dB i j / a)) := by
    show o.parabolicMul dt (Pi.single j 1) i = _
    rw [parabolic_eq]
    simp only [Pi.sub_apply, Pi.smul_apply, smul_eq_mul]
    rw [hel, inflow_single h _ _ hne hi, Pi.single_eq_of_ne hne]
    ring
  rw [e1, e2] at h1
  have hpos : 0 < pair o.mesh o.d o.dB i j := by
    unfold pair
    rw [Finset.sum_eq_single e]
    · rw [if_pos hij]
      unfold conductance
      rw [hij, value_inner, hj]
      have := h.len i i.2 e
      have := gap_pos h i.2 e
      positivity
    · intro e' _ he'
      rw [if_neg]
      intro h'
      exact he' (h.distinct i i.2 (h'.trans hij.symm))
    · intro hn
      exact absurd (Finset.mem_univ e) hn
  have hap := even_pos h ha i
  have : 0 < dt * (pair o.mesh o.d o.dB i j / a) := by positivity
  linarith

/-- **C75, disagreement.** A call on a uniform flow, where nothing can diffuse, still takes momentum away: every component is multiplied by
`h² / (h² + 1e-8)`. -/
theorem C75_call_loses_momentum {c : Cfg n} {timestep dt0 : ℝ} {s : State n} (h : c.mesh.Conforming n) {a : ℝ} (ha : (c.op s).Even a) (hm : (c.op s).mesh = c.mesh)
    (hge : c.dtApply ≤ dt0 + timestep) (hd : ∀ i, 0 ≤ (c.op s).d i) {cu cv : ℝ}
    (hu : ∀ i, velocity (s.uh i) (depth (s.w i) (s.z i)) = cu) (huB : ∀ k, velocity (s.uhB k) (depth (s.wB k) (s.zB k)) = cu)
    (hv : ∀ i, velocity (s.vh i) (depth (s.w i) (s.z i)) = cv) (hvB : ∀ k, velocity (s.vhB k) (depth (s.wB k) (s.zB k)) = cv) :
    call c timestep dt0 s = some (0, { s with
      uh := fun i => s.uh i * (depth (s.w i) (s.z i) ^ 2 / (depth (s.w i) (s.z i) ^ 2 + 1 / 10 ^ 8))
      vh := fun i => s.vh i * (depth (s.w i) (s.z i) ^ 2 / (depth (s.w i) (s.z i) ^ 2 + 1 / 10 ^ 8)) }) := by
  unfold call
  simp only
  rw [if_neg (not_lt.mpr hge), if_pos hd]
  simp only [hu, huB, hv, hvB]
  rw [C75_uniform (hm ▸ h) ha, C75_uniform (hm ▸ h) ha]
  simp only [Option.some.injEq, Prod.mk.injEq, true_and]
  congr 1
  · funext i
    rw [← hu i]
    unfold velocity
    rw [pow_two]
    ring
  · funext i
    rw [← hv i]
    unfold velocity
    rw [pow_two]
    ring

end Verif.Kv
