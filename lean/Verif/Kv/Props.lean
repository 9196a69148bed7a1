import Verif.Kv.Lemmas
import Mathlib.Data.Finset.Max

/-!
# C75: kinematic viscosity
-/

namespace Verif.Kv

open Verif.CG Matrix

variable {n : ℕ}

/-- **C75.** The sparse matrix, with its four entries in each row in the order of their columns, acts as diffusion between neighbours and from
boundary edges. -/
theorem C75_matrix {o : Op n} (h : o.mesh.Conforming n) (u : Fin n → ℝ) (b : ℕ → ℝ) (i : Fin n) :
    o.apply (extend n u b) i = inflow o.mesh o.d o.dB u b i := apply_eq h u b i

/-- **C75.** The columns of each row are sorted, and are the triangle and what lies across its edges. -/
theorem C75_columns (M : Mesh) (d : ℕ → ℝ) (i : ℕ) :
    ((row (M.index n i) (M.geo i) d i).map Prod.fst).Pairwise (· ≤ ·) ∧
      ((row (M.index n i) (M.geo i) d i).map Prod.fst).Perm [M.index n i 0, M.index n i 1, M.index n i 2, i] := by
  set L := [M.index n i 0, M.index n i 1, M.index n i 2, i] with hL
  have hmem : ∀ k ∈ L.insertionSort (· ≤ ·), k = M.index n i 0 ∨ k = M.index n i 1 ∨ k = M.index n i 2 ∨ k = i := by
    intro k hk
    have := (List.perm_insertionSort (· ≤ ·) L).subset hk
    simpa [hL] using this
  have : (row (M.index n i) (M.geo i) d i).map Prod.fst = L.insertionSort (· ≤ ·) := by
    unfold row
    simp only
    rw [List.map_map, ← hL]
    conv_rhs => rw [← List.map_id (L.insertionSort (· ≤ ·))]
    apply List.map_congr_left
    intro k hk
    simp only [Function.comp_apply, id]
    have := hmem k hk
    split_ifs <;> simp only <;> first | (symm; assumption) | (exact Eq.symm (by tauto)) 
  rw [this]
  exact ⟨List.pairwise_insertionSort _ _, List.perm_insertionSort _ _⟩

theorem dot_parabolic {o : Op n} (h : o.mesh.Conforming n) {a : ℝ} (ha : o.Even a) (dt : ℝ) (u v : Fin n → ℝ) :
    v ⬝ᵥ o.parabolicMul dt u = v ⬝ᵥ u - dt / a * ∑ i, v i * inflow o.mesh o.d o.dB u (fun _ => 0) i := by
  have e : o.parabolicMul dt u = fun i => u i - dt / a * inflow o.mesh o.d o.dB u (fun _ => 0) i := by
    funext i
    have := even_eq h ha u (fun _ => 0) i
    have hb : o.boundaryTerm (fun _ => 0) i = 0 := by
      unfold Op.boundaryTerm Op.scale
      rw [apply_eq h]
      have : inflow o.mesh o.d o.dB (fun _ : Fin n => 0) (fun _ => 0) i = 0 := by
        have := inflow_smul o.mesh o.d o.dB 0 (fun _ : Fin n => 0) (fun _ => 0) i
        simpa using this
      rw [this]
      simp
    rw [hb, add_zero] at this
    rw [parabolic_eq]
    simp only [Pi.sub_apply, Pi.smul_apply, smul_eq_mul]
    rw [this]
    ring
  rw [e]
  unfold dotProduct
  rw [Finset.mul_sum, ← Finset.sum_sub_distrib]
  exact Finset.sum_congr rfl fun i _ => by ring

theorem symm_of_form {A : Matrix (Fin n) (Fin n) ℝ} (h : ∀ u v, v ⬝ᵥ A *ᵥ u = u ⬝ᵥ A *ᵥ v) : Aᵀ = A := by
  ext i j
  have := h (Pi.single i 1) (Pi.single j 1)
  simpa using this

theorem even_pos {o : Op n} (h : o.mesh.Conforming n) {a : ℝ} (ha : o.Even a) (i : Fin n) : 0 < a := by
  rcases ha with ⟨-, rfl⟩ | ⟨-, h2⟩
  · exact one_pos
  · exact h2 i ▸ h.area i i.2

/-- **C75.** With positive diffusivity everywhere and triangles of one size (or areas switched off) the matrix of a step is symmetric and
positive definite. -/
theorem C75_definite {o : Op n} (h : o.mesh.Conforming n) {a : ℝ} (ha : o.Even a) (hd : ∀ i, 0 < o.d i) (hB : ∀ k, 0 ≤ o.dB k) {dt : ℝ}
    (hdt : 0 ≤ dt) : SPD (matrixOf (o.parabolicMul dt)) := by
  constructor
  · apply symm_of_form
    intro u v
    rw [parabolic_matrix h, parabolic_matrix h, dot_parabolic h ha, dot_parabolic h ha, form_symm h o.dB hd, dotProduct_comm]
  · intro v hv
    rw [parabolic_matrix h, dot_parabolic h ha]
    have h1 := form_nonpos h hd hB v
    have h2 : 0 < v ⬝ᵥ v := by
      rcases lt_or_eq_of_le (Finset.sum_nonneg fun i _ => mul_self_nonneg (v i) : 0 ≤ v ⬝ᵥ v) with h2 | h2
      · exact h2
      · exact absurd (dotProduct_self_eq_zero.mp h2.symm) hv
    obtain ⟨i, -⟩ : ∃ i, v i ≠ 0 := by
      by_contra hn
      push Not at hn
      exact hv (funext hn)
    have h3 : 0 ≤ dt / a := div_nonneg hdt (even_pos h ha i).le
    have := mul_nonneg h3 (neg_nonneg.mpr h1)
    linarith

/-- Sum of squares. -/
def sq (r : Fin n → ℝ) : ℝ := ∑ i, r i ^ 2

theorem dot_sq (r : Fin n → ℝ) : r ⬝ᵥ r = sq r := by
  unfold sq dotProduct
  exact Finset.sum_congr rfl fun i _ => (pow_two _).symm

/-- What is left of the equation of an implicit step from `u` to `x`, with boundary values `b`. -/
noncomputable def defect (o : Op n) (a dt : ℝ) (u : Fin n → ℝ) (b : ℕ → ℝ) (x : Fin n → ℝ) (i : Fin n) : ℝ :=
  u i + dt * (inflow o.mesh o.d o.dB x b i / a) - x i

/-- The limit at which the solver stops: `e` or `e` times the defect of the start, whichever is larger. -/
def Small (r r0 : Fin n → ℝ) (e : ℝ) : Prop := sq r ≤ e ^ 2 * sq r0 ∨ sq r ≤ e ^ 2

theorem defect_eq {o : Op n} (h : o.mesh.Conforming n) {a : ℝ} (ha : o.Even a) (dt : ℝ) (u : Fin n → ℝ) (b : ℕ → ℝ) (x : Fin n → ℝ) :
    (fun i => u i + dt * o.boundaryTerm b i) - matrixOf (o.parabolicMul dt) *ᵥ x = defect o a dt u b x := by
  funext i
  rw [parabolic_matrix h, parabolic_eq]
  unfold defect
  rw [← even_eq h ha]
  simp only [Pi.sub_apply, Pi.smul_apply, smul_eq_mul]
  ring

/-- **C75.** What a solve returns satisfies the implicit equation up to the tolerance. -/
theorem C75_solution {o : Op n} (h : o.mesh.Conforming n) {a : ℝ} (ha : o.Even a) {dt : ℝ} {u : Fin n → ℝ} {b : ℕ → ℝ} {x : Fin n → ℝ}
    (hx : o.parabolicSolve dt u b = .ok x) : Small (defect o a dt u b x) (defect o a dt u b u) (min dt (1 / 10 ^ 5)) := by
  have := C23_tolerance _ _ _ _ (by norm_num) _ _ _ _ x hx
  unfold resSq normOf startOf precond at this
  simp only [Bool.false_eq_true, if_false, Bool.or_self, Option.getD_some] at this
  rw [defect_eq h ha, defect_eq h ha, dot_sq, dot_sq] at this
  exact this

/-- **C75.** Where the diffusivity is positive everywhere, a solve answers. -/
theorem C75_answers {o : Op n} (h : o.mesh.Conforming n) {a : ℝ} (ha : o.Even a) (hd : ∀ i, 0 < o.d i) (hB : ∀ k, 0 ≤ o.dB k) {dt : ℝ}
    (hdt : 0 ≤ dt) (hn : n + 2 ≤ 10000) (u : Fin n → ℝ) (b : ℕ → ℝ) : ∃ x, o.parabolicSolve dt u b = .ok x :=
  C23_terminates (C75_definite h ha hd hB hdt) _ _ _ hn _ _ (Or.inr rfl)

theorem single_le_sq (r : Fin n → ℝ) (i : Fin n) : r i ^ 2 ≤ sq r :=
  Finset.single_le_sum (f := fun i => r i ^ 2) (fun j _ => sq_nonneg (r j)) (Finset.mem_univ i)

theorem small_abs {r r0 : Fin n → ℝ} {e t : ℝ} (hs : Small r r0 e) (ht : 0 ≤ t) (h1 : e ^ 2 ≤ t ^ 2) (h2 : e ^ 2 * sq r0 ≤ t ^ 2) (i : Fin n) :
    |r i| ≤ t := by
  apply abs_le_of_sq_le_sq _ ht
  rcases hs with hs | hs
  · exact (single_le_sq r i).trans (hs.trans h2)
  · exact (single_le_sq r i).trans (hs.trans h1)

theorem value_le {u : Fin n → ℝ} {b : ℕ → ℝ} {t : ℝ} (hu : ∀ i, u i ≤ t) (hb : ∀ k, b k ≤ t) {M : Mesh} (h : M.Conforming n) (i : Fin n) (e : Fin 3) :
    value u b (M.nb i e) ≤ t := by
  unfold value
  split_ifs with h1 h2
  · exact hb _
  · exact hu _
  · exfalso
    obtain ⟨j, hj, hj2, -⟩ := h.inner i i.2 e (not_lt.mp h1)
    omega

theorem inflow_nonpos {M : Mesh} (h : M.Conforming n) {d : Fin n → ℝ} {dB : ℕ → ℝ} (hd : ∀ i, 0 ≤ d i) (hB : ∀ k, 0 ≤ dB k) {x : Fin n → ℝ}
    {b : ℕ → ℝ} {i : Fin n} (hx : ∀ j, x j ≤ x i) (hb : ∀ k, b k ≤ x i) : inflow M d dB x b i ≤ 0 := by
  unfold inflow
  split_ifs
  · exact le_rfl
  · exact Finset.sum_nonpos fun e _ =>
      mul_nonpos_of_nonneg_of_nonpos (conductance_nonneg h hd hB i e) (by linarith [value_le hx hb h i e])

theorem value_neg (u : Fin n → ℝ) (b : ℕ → ℝ) (k : ℤ) : value (fun i => -u i) (fun k => -b k) k = -value u b k := by
  unfold value
  split_ifs <;> simp

theorem inflow_neg (M : Mesh) (d : Fin n → ℝ) (dB : ℕ → ℝ) (u : Fin n → ℝ) (b : ℕ → ℝ) (i : Fin n) :
    inflow M d dB (fun i => -u i) (fun k => -b k) i = -inflow M d dB u b i := by
  have := inflow_smul M d dB (-1) u b i
  simpa using this

theorem upper {o : Op n} (h : o.mesh.Conforming n) {a : ℝ} (ha : o.Even a) (hd : ∀ i, 0 ≤ o.d i) (hB : ∀ k, 0 ≤ o.dB k) {dt : ℝ} (hdt : 0 ≤ dt)
    {u x : Fin n → ℝ} {b : ℕ → ℝ} {hi t : ℝ} (ht : 0 ≤ t) (hu : ∀ i, u i ≤ hi) (hb : ∀ k, b k ≤ hi) (hr : ∀ i, |defect o a dt u b x i| ≤ t) (i : Fin n) :
    x i ≤ hi + t := by
  obtain ⟨m, -, hm⟩ := Finset.exists_max_image Finset.univ x ⟨i, Finset.mem_univ i⟩
  refine (hm i (Finset.mem_univ i)).trans ?_
  by_cases hx : x m ≤ hi
  · linarith
  · have h1 := inflow_nonpos h hd hB (x := x) (b := b) (i := m) (fun j => hm j (Finset.mem_univ j)) (fun k => (hb k).trans (not_le.mp hx).le)
    have h2 := (abs_le.mp (hr m)).1
    unfold defect at h2
    have h3 : dt * (inflow o.mesh o.d o.dB x b m / a) ≤ 0 :=
      mul_nonpos_of_nonneg_of_nonpos hdt (div_nonpos_of_nonpos_of_nonneg h1 (even_pos h ha m).le)
    have := hu m
    linarith

/-- **C75.** No new extremes: if the values before and at the boundary lie between `lo` and `hi`, then so do the values returned, up to `t`, where
`t` bounds the tolerances. A triangle without diffusivity keeps its value up to `t`. -/
theorem C75_no_new_extremes {o : Op n} (h : o.mesh.Conforming n) {a : ℝ} (ha : o.Even a) (hd : ∀ i, 0 ≤ o.d i) (hB : ∀ k, 0 ≤ o.dB k) {dt : ℝ}
    (hdt : 0 ≤ dt) {u x : Fin n → ℝ} {b : ℕ → ℝ} (hx : o.parabolicSolve dt u b = .ok x) {t : ℝ} (ht : 0 ≤ t) (h1 : min dt (1 / 10 ^ 5) ^ 2 ≤ t ^ 2)
    (h2 : min dt (1 / 10 ^ 5) ^ 2 * sq (defect o a dt u b u) ≤ t ^ 2) {lo hi : ℝ} (hu : ∀ i, lo ≤ u i ∧ u i ≤ hi) (hb : ∀ k, lo ≤ b k ∧ b k ≤ hi)
    (i : Fin n) : lo - t ≤ x i ∧ x i ≤ hi + t ∧ (o.d i = 0 → |x i - u i| ≤ t) := by
  have hr := small_abs (C75_solution h ha hx) ht h1 h2
  refine ⟨?_, upper h ha hd hB hdt ht (fun i => (hu i).2) (fun k => (hb k).2) hr i, ?_⟩
  · have := upper h ha hd hB hdt (u := fun i => -u i) (x := fun i => -x i) (b := fun k => -b k) (hi := -lo) ht
      (fun i => neg_le_neg (hu i).1) (fun k => neg_le_neg (hb k).1) (fun i => by
        have e : defect o a dt (fun i => -u i) (fun k => -b k) (fun i => -x i) i = -defect o a dt u b x i := by
          unfold defect
          rw [inflow_neg]
          ring
        rw [e, abs_neg]
        exact hr i) i
    linarith
  · intro h0
    have := hr i
    unfold defect inflow at this
    rw [if_pos h0.le, zero_div, mul_zero, add_zero, abs_sub_comm] at this
    exact this

/-- **C75.** Uniform values are not changed at all. -/
theorem C75_uniform {o : Op n} (h : o.mesh.Conforming n) {a : ℝ} (ha : o.Even a) (dt c : ℝ) :
    o.parabolicSolve dt (fun _ => c) (fun _ => c) = .ok fun _ => c := by
  have h0 : ∀ i, inflow o.mesh o.d o.dB (fun _ => c) (fun _ => c) i = 0 := by
    intro i
    unfold inflow
    split_ifs
    · rfl
    · refine Finset.sum_eq_zero fun e _ => ?_
      have : value (fun _ : Fin n => c) (fun _ => c) (o.mesh.nb i e) = c :=
        le_antisymm (value_le (fun _ => le_rfl) (fun _ => le_rfl) h i e) (by
          have := value_le (u := fun _ : Fin n => -c) (b := fun _ => -c) (t := -c) (fun _ => le_rfl) (fun _ => le_rfl) h i e
          rw [value_neg] at this
          linarith)
      rw [this, sub_self, mul_zero]
  have hdef : defect o a dt (fun _ => c) (fun _ => c) (fun _ => c) = 0 := by
    funext i
    unfold defect
    rw [h0]
    simp
  unfold Op.parabolicSolve
  rw [solve_py]
  unfold pySolve pyStart normOf startOf precond
  simp only [Bool.false_eq_true, if_false, Bool.or_self, Option.getD_some]
  rw [defect_eq h ha, hdef]
  unfold pyLoop
  simp [goOn]

/-- **C75.** Sum over all triangles: what is gained came through boundary edges, up to the defect. -/
theorem C75_conserves {o : Op n} (h : o.mesh.Conforming n) (a : ℝ) (hd : ∀ i, 0 < o.d i) (dt : ℝ) (u x : Fin n → ℝ) (b : ℕ → ℝ) :
    ∑ i, x i = ∑ i, u i + dt / a * (∑ i : Fin n, ∑ e, if o.mesh.nb i e < 0 then
      conductance o.mesh o.d o.dB i e * (b (-(o.mesh.nb i e) - 1).toNat - x i) else 0) - ∑ i, defect o a dt u b x i := by
  have h1 : ∑ i, inflow o.mesh o.d o.dB x b i = ∑ i, outer o.mesh o.d o.dB x b i := by
    have := by_parts (pair_symm h o.d o.dB) x (fun _ => 1)
    simp only [one_mul, sub_self, mul_zero, Finset.sum_const_zero] at this
    rw [Finset.sum_congr rfl fun i _ => inflow_pairs h o.dB x b (hd i), Finset.sum_add_distrib, this, zero_add]
  have h2 : ∑ i, defect o a dt u b x i = ∑ i, u i + dt / a * ∑ i, inflow o.mesh o.d o.dB x b i - ∑ i, x i := by
    rw [Finset.mul_sum, ← Finset.sum_add_distrib, ← Finset.sum_sub_distrib]
    refine Finset.sum_congr rfl fun i _ => ?_
    unfold defect
    ring
  rw [h2, h1]
  unfold outer
  ring

/-- **C75.** An exact step with zero boundary values does not increase the sum of squares. -/
theorem C75_energy {o : Op n} (h : o.mesh.Conforming n) {a : ℝ} (ha : o.Even a) (hd : ∀ i, 0 < o.d i) (hB : ∀ k, 0 ≤ o.dB k) {dt : ℝ} (hdt : 0 ≤ dt)
    {u x : Fin n → ℝ} (hx : ∀ i, defect o a dt u (fun _ => 0) x i = 0) : sq x ≤ sq u := by
  have h1 : ∑ i, x i * u i = sq x - dt / a * ∑ i, x i * inflow o.mesh o.d o.dB x (fun _ => 0) i := by
    unfold sq
    rw [Finset.mul_sum, ← Finset.sum_sub_distrib]
    refine Finset.sum_congr rfl fun i _ => ?_
    have := hx i
    unfold defect at this
    rw [show u i = x i - dt * (inflow o.mesh o.d o.dB x (fun _ => 0) i / a) by linarith]
    ring
  have h2 : 0 ≤ -(dt / a * ∑ i, x i * inflow o.mesh o.d o.dB x (fun _ => 0) i) := by
    by_cases hn : Nonempty (Fin n)
    · obtain ⟨i⟩ := hn
      have h3 : 0 ≤ dt / a := div_nonneg hdt (even_pos h ha i).le
      have := mul_nonneg h3 (neg_nonneg.mpr (form_nonpos h hd hB x))
      linarith
    · have : IsEmpty (Fin n) := not_nonempty_iff.mp hn
      simp
  have h3 : ∑ i, (u i - x i) ^ 2 = sq u - 2 * ∑ i, x i * u i + sq x := by
    unfold sq
    rw [Finset.mul_sum, ← Finset.sum_sub_distrib, ← Finset.sum_add_distrib]
    exact Finset.sum_congr rfl fun i _ => by ring
  have h4 : 0 ≤ ∑ i, (u i - x i) ^ 2 := Finset.sum_nonneg fun i _ => sq_nonneg _
  linarith

/-- **C75.** A call: stage, bed and boundary values stay, time is used up, and the new momenta are depth times velocities that solve the two
implicit equations from the velocities before, `uh h / (h² + 1e-8)`. Before `dt_apply` has passed nothing happens but the count of time. -/
theorem C75_call {c : Cfg n} {timestep dt0 : ℝ} {s : State n} {r : ℝ × State n} (hr : call c timestep dt0 s = some r) :
    (c.diffusivity = none → c.op s = ⟨c.mesh, c.useAreas, fun i => max 0 (s.w i - s.z i), fun k => max 0 (s.wB k - s.zB k)⟩) ∧
    (∀ d, c.diffusivity = some d → c.op s = ⟨c.mesh, c.useAreas, d.1, d.2⟩) ∧
    (dt0 + timestep < c.dtApply → r = (dt0 + timestep, s)) ∧
    (c.dtApply ≤ dt0 + timestep → r.1 = 0 ∧ ∃ u v, (c.op s).parabolicSolve (dt0 + timestep)
        (fun i => velocity (s.uh i) (max 0 (s.w i - s.z i))) (fun k => velocity (s.uhB k) (max 0 (s.wB k - s.zB k))) = .ok u ∧
      (c.op s).parabolicSolve (dt0 + timestep)
        (fun i => velocity (s.vh i) (max 0 (s.w i - s.z i))) (fun k => velocity (s.vhB k) (max 0 (s.wB k - s.zB k))) = .ok v ∧
      r.2 = { s with uh := fun i => u i * max 0 (s.w i - s.z i), vh := fun i => v i * max 0 (s.w i - s.z i) }) := by
  have hdep : ∀ w z, depth w z = max 0 (w - z) := by
    intro w z
    unfold depth
    split_ifs with h
    · exact (max_eq_right h).symm
    · exact (max_eq_left (not_le.mp h).le).symm
  refine ⟨fun hd => by simp only [Cfg.op, hd, hdep], fun d hd => by simp only [Cfg.op, hd], ?_⟩
  unfold call at hr
  constructor
  · intro hlt
    rw [if_pos hlt] at hr
    exact (Option.some.inj hr).symm
  · intro hle
    rw [if_neg (not_lt.mpr hle)] at hr
    simp only [hdep] at hr
    split_ifs at hr with hpos
    split at hr
    · rename_i u v hu hv
      obtain rfl := Option.some.inj hr
      exact ⟨rfl, u, v, hu, hv, rfl⟩
    · cases hr

end Verif.Kv
