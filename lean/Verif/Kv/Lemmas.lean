import Verif.Kv.Spec
import Mathlib.Algebra.BigOperators.Ring.Finset

/-!
# Lemmas on the elliptic matrix
-/

namespace Verif.Kv

open Verif.CG Matrix

variable {n : ℕ}

theorem row_sum (idx : Fin 3 → ℕ) (geo : Fin 3 → ℝ) (d : ℕ → ℝ) (i : ℕ) (hi : Function.Injective idx) (hn : ∀ e, idx e ≠ i) (X : ℕ → ℝ) :
    ((row idx geo d i).map fun p => p.2 * X p.1).sum =
      if d i ≤ 0 then 0 else ∑ e, 1 / 2 * (d i + d (idx e)) * -geo e * (X (idx e) - X i) := by
  have h01 : idx 1 ≠ idx 0 := fun h => absurd (hi h) (by decide)
  have h02 : idx 2 ≠ idx 0 := fun h => absurd (hi h) (by decide)
  have h12 : idx 2 ≠ idx 1 := fun h => absurd (hi h) (by decide)
  unfold row
  simp only
  rw [List.map_map]
  rw [((List.perm_insertionSort (· ≤ ·) [idx 0, idx 1, idx 2, i]).map _).sum_eq]
  simp only [List.map_cons, List.map_nil, Function.comp_apply, List.sum_cons, List.sum_nil, hn 0, hn 1, hn 2, h01, h02, h12, if_true, if_false]
  by_cases hd : d i ≤ 0
  · simp only [if_pos hd]; ring
  · simp only [if_neg hd]
    rw [Fin.sum_univ_three]
    ring

theorem index_inj {M : Mesh} (h : M.Conforming n) {i : ℕ} (hi : i < n) : Function.Injective (M.index n i) := by
  intro e e' he
  apply h.distinct i hi
  unfold Mesh.index at he
  by_cases h1 : M.nb i e < 0 <;> by_cases h2 : M.nb i e' < 0
  · rw [if_pos h1, if_pos h2] at he; omega
  · rw [if_pos h1, if_neg h2] at he
    obtain ⟨j, hj, hj2, -⟩ := h.inner i hi e' (not_lt.mp h2)
    omega
  · rw [if_neg h1, if_pos h2] at he
    obtain ⟨j, hj, hj2, -⟩ := h.inner i hi e (not_lt.mp h1)
    omega
  · rw [if_neg h1, if_neg h2] at he; omega

theorem index_ne {M : Mesh} (h : M.Conforming n) {i : ℕ} (hi : i < n) (e : Fin 3) : M.index n i e ≠ i := by
  unfold Mesh.index
  by_cases h1 : M.nb i e < 0
  · rw [if_pos h1]; omega
  · rw [if_neg h1]
    obtain ⟨j, hj, hj2, hj3, -⟩ := h.inner i hi e (not_lt.mp h1)
    omega

theorem extend_index {M : Mesh} (h : M.Conforming n) (u : Fin n → ℝ) (b : ℕ → ℝ) {i : ℕ} (hi : i < n) (e : Fin 3) :
    extend n u b (M.index n i e) = value u b (M.nb i e) := by
  unfold extend value Mesh.index
  by_cases h1 : M.nb i e < 0
  · rw [if_pos h1, if_pos h1, dif_neg (by omega), Nat.add_sub_cancel_left]
  · obtain ⟨j, hj, hj2, -⟩ := h.inner i hi e (not_lt.mp h1)
    have : (M.nb i e).toNat < n := by omega
    simp only [if_neg h1, dif_pos this]

theorem extend_self (u : Fin n → ℝ) (b : ℕ → ℝ) (i : Fin n) : extend n u b i = u i := by
  unfold extend
  rw [dif_pos i.2]

theorem dist_eq (M : Mesh) (i : ℕ) (e : Fin 3) : M.dist i e = M.gap i e := by
  unfold Mesh.dist Mesh.gap
  congr 1
  ring

theorem gap_pos {M : Mesh} (h : M.Conforming n) {i : ℕ} (hi : i < n) (e : Fin 3) : 0 < M.gap i e := by
  apply Real.sqrt_pos.mpr
  rcases lt_or_eq_of_le (add_nonneg (sq_nonneg ((M.other i e).1 - (M.cen i).1)) (sq_nonneg ((M.other i e).2 - (M.cen i).2))) with h0 | h0
  · exact h0
  · exfalso
    have h1 := sq_nonneg ((M.other i e).1 - (M.cen i).1)
    have h2 := sq_nonneg ((M.other i e).2 - (M.cen i).2)
    have e1 : ((M.other i e).1 - (M.cen i).1) ^ 2 = 0 := by linarith
    have e2 : ((M.other i e).2 - (M.cen i).2) ^ 2 = 0 := by linarith
    exact h.apart i hi e (Prod.ext (sub_eq_zero.mp (pow_eq_zero_iff two_ne_zero |>.mp e1)).symm
      (sub_eq_zero.mp (pow_eq_zero_iff two_ne_zero |>.mp e2)).symm)

/-- The product with the matrix is the inflow. -/
theorem apply_eq {o : Op n} (h : o.mesh.Conforming n) (u : Fin n → ℝ) (b : ℕ → ℝ) (i : Fin n) :
    o.apply (extend n u b) i = inflow o.mesh o.d o.dB u b i := by
  unfold Op.apply inflow
  rw [row_sum _ _ _ _ (index_inj h i.2) (index_ne h i.2), extend_self, extend_self]
  by_cases hd : o.d i ≤ 0
  · rw [if_pos hd, if_pos hd]
  · rw [if_neg hd, if_neg hd]
    refine Finset.sum_congr rfl fun e _ => ?_
    rw [extend_index h _ _ i.2, extend_index h _ _ i.2]
    unfold conductance Mesh.geo
    rw [dist_eq]
    ring

theorem value_add (u v : Fin n → ℝ) (b c : ℕ → ℝ) (k : ℤ) : value (fun i => u i + v i) (fun k => b k + c k) k = value u b k + value v c k := by
  unfold value
  split_ifs <;> simp

theorem value_smul (a : ℝ) (u : Fin n → ℝ) (b : ℕ → ℝ) (k : ℤ) : value (fun i => a * u i) (fun k => a * b k) k = a * value u b k := by
  unfold value
  split_ifs <;> simp

theorem inflow_add (M : Mesh) (d : Fin n → ℝ) (dB : ℕ → ℝ) (u v : Fin n → ℝ) (b c : ℕ → ℝ) (i : Fin n) :
    inflow M d dB (fun i => u i + v i) (fun k => b k + c k) i = inflow M d dB u b i + inflow M d dB v c i := by
  unfold inflow
  split_ifs
  · ring
  · rw [← Finset.sum_add_distrib]
    refine Finset.sum_congr rfl fun e _ => ?_
    rw [value_add]; ring

theorem inflow_smul (M : Mesh) (d : Fin n → ℝ) (dB : ℕ → ℝ) (a : ℝ) (u : Fin n → ℝ) (b : ℕ → ℝ) (i : Fin n) :
    inflow M d dB (fun i => a * u i) (fun k => a * b k) i = a * inflow M d dB u b i := by
  unfold inflow
  split_ifs
  · ring
  · rw [Finset.mul_sum]
    refine Finset.sum_congr rfl fun e _ => ?_
    rw [value_smul]; ring

/-- A function that is linear acts like its matrix. -/
theorem matrixOf_mulVec {f : (Fin n → ℝ) → Fin n → ℝ} (hadd : ∀ u v, f (u + v) = f u + f v) (hsmul : ∀ (a : ℝ) u, f (a • u) = a • f u)
    (u : Fin n → ℝ) : matrixOf f *ᵥ u = f u := by
  let F : (Fin n → ℝ) →ₗ[ℝ] (Fin n → ℝ) := { toFun := f, map_add' := hadd, map_smul' := hsmul }
  have h1 : F u = ∑ j, u j • F (Pi.single j 1) := by
    conv_lhs => rw [show u = ∑ j, u j • (Pi.single j 1 : Fin n → ℝ) by
      funext i
      rw [Finset.sum_apply]
      simp [Pi.single_apply]]
    rw [map_sum]
    exact Finset.sum_congr rfl fun j _ => map_smul F _ _
  funext i
  show (matrixOf f *ᵥ u) i = F u i
  rw [h1, Finset.sum_apply]
  unfold mulVec dotProduct matrixOf
  refine Finset.sum_congr rfl fun j _ => ?_
  exact mul_comm _ _

theorem scale_add (o : Op n) (u v : Fin n → ℝ) : o.scale (u + v) = fun i => o.scale u i + o.scale v i := by
  funext i
  unfold Op.scale
  split_ifs <;> simp [mul_add]

theorem scale_smul (o : Op n) (a : ℝ) (u : Fin n → ℝ) : o.scale (a • u) = fun i => a * o.scale u i := by
  funext i
  unfold Op.scale
  split_ifs
  · simp; ring
  · simp

theorem elliptic_eq {o : Op n} (h : o.mesh.Conforming n) (u : Fin n → ℝ) (i : Fin n) :
    o.ellipticMul u i = inflow o.mesh o.d o.dB (o.scale u) (fun _ => 0) i := apply_eq h _ _ i

theorem elliptic_add {o : Op n} (h : o.mesh.Conforming n) (u v : Fin n → ℝ) : o.ellipticMul (u + v) = o.ellipticMul u + o.ellipticMul v := by
  funext i
  rw [elliptic_eq h, scale_add, Pi.add_apply, elliptic_eq h, elliptic_eq h, ← inflow_add]
  simp

theorem elliptic_smul {o : Op n} (h : o.mesh.Conforming n) (a : ℝ) (u : Fin n → ℝ) : o.ellipticMul (a • u) = a • o.ellipticMul u := by
  funext i
  rw [elliptic_eq h, scale_smul, Pi.smul_apply, elliptic_eq h, smul_eq_mul, ← inflow_smul]
  simp

theorem parabolic_eq (o : Op n) (dt : ℝ) (u : Fin n → ℝ) : o.parabolicMul dt u = u - dt • o.ellipticMul u := rfl

theorem elliptic_matrix {o : Op n} (h : o.mesh.Conforming n) (u : Fin n → ℝ) : matrixOf o.ellipticMul *ᵥ u = o.ellipticMul u :=
  matrixOf_mulVec (elliptic_add h) (elliptic_smul h) u

theorem parabolic_matrix {o : Op n} (h : o.mesh.Conforming n) (dt : ℝ) (u : Fin n → ℝ) : matrixOf (o.parabolicMul dt) *ᵥ u = o.parabolicMul dt u := by
  apply matrixOf_mulVec
  · intro u v
    rw [parabolic_eq, parabolic_eq, parabolic_eq, elliptic_add h, smul_add]
    abel
  · intro a u
    rw [parabolic_eq, parabolic_eq, elliptic_smul h, smul_sub, smul_comm]

/-- With even areas the operator and the boundary term together are the inflow divided by the area. -/
theorem even_eq {o : Op n} (h : o.mesh.Conforming n) {a : ℝ} (ha : o.Even a) (u : Fin n → ℝ) (b : ℕ → ℝ) (i : Fin n) :
    o.ellipticMul u i + o.boundaryTerm b i = inflow o.mesh o.d o.dB u b i / a := by
  have hs : ∀ v : Fin n → ℝ, o.scale v = fun i => 1 / a * v i := by
    intro v
    funext i
    unfold Op.scale
    rcases ha with ⟨h1, rfl⟩ | ⟨h1, h2⟩
    · simp [h1]
    · simp [h1, h2]
  rw [elliptic_eq h, hs]
  unfold Op.boundaryTerm
  rw [hs]
  simp only
  rw [apply_eq h, ← inflow_smul, ← inflow_add, show inflow o.mesh o.d o.dB u b i / a = 1 / a * inflow o.mesh o.d o.dB u b i by ring, ← inflow_smul]
  congr 1
  · funext i; ring
  · funext k; ring

/-! ## Pairs of triangles -/

/-- Conductance between two triangles. -/
noncomputable def pair (M : Mesh) (d : Fin n → ℝ) (dB : ℕ → ℝ) (i j : Fin n) : ℝ :=
  ∑ e, if M.nb i e = (j : ℕ) then conductance M d dB i e else 0

/-- Inflow through boundary edges. -/
noncomputable def outer (M : Mesh) (d : Fin n → ℝ) (dB : ℕ → ℝ) (u : Fin n → ℝ) (b : ℕ → ℝ) (i : Fin n) : ℝ :=
  ∑ e, if M.nb i e < 0 then conductance M d dB i e * (b (-(M.nb i e) - 1).toNat - u i) else 0

theorem value_inner (u : Fin n → ℝ) (b : ℕ → ℝ) (j : Fin n) : value u b ((j : ℕ) : ℤ) = u j := by
  unfold value
  rw [if_neg (by omega), dif_pos (by simp)]
  rfl

theorem inflow_pairs {M : Mesh} (h : M.Conforming n) {d : Fin n → ℝ} (dB : ℕ → ℝ) (u : Fin n → ℝ) (b : ℕ → ℝ) {i : Fin n} (hd : 0 < d i) :
    inflow M d dB u b i = ∑ j, pair M d dB i j * (u j - u i) + outer M d dB u b i := by
  unfold inflow outer pair
  rw [if_neg (not_le.mpr hd)]
  simp only [Finset.sum_mul]
  rw [Finset.sum_comm, ← Finset.sum_add_distrib]
  refine Finset.sum_congr rfl fun e _ => ?_
  by_cases h1 : M.nb i e < 0
  · rw [if_pos h1]
    have : ∀ j : Fin n, (if M.nb i e = (j : ℕ) then conductance M d dB i e else 0) * (u j - u i) = 0 := by
      intro j
      rw [if_neg (by omega), zero_mul]
    rw [Finset.sum_congr rfl fun j _ => this j, Finset.sum_const_zero, zero_add]
    unfold value
    rw [if_pos h1]
  · rw [if_neg h1, add_zero]
    obtain ⟨j, hj, hj2, -⟩ := h.inner i i.2 e (not_lt.mp h1)
    rw [Finset.sum_eq_single (⟨j, hj⟩ : Fin n), if_pos hj2, hj2]
    · rw [show ((j : ℕ) : ℤ) = (((⟨j, hj⟩ : Fin n) : ℕ) : ℤ) from rfl, value_inner]
    · intro k _ hk
      rw [if_neg, zero_mul]
      intro he
      apply hk
      apply Fin.ext
      show (k : ℕ) = j
      omega
    · intro hn
      exact absurd (Finset.mem_univ _) hn

theorem gap_symm {M : Mesh} {i j : ℕ} {e e' : Fin 3} (h1 : M.nb i e = j) (h2 : M.nb j e' = i) : M.gap i e = M.gap j e' := by
  unfold Mesh.gap Mesh.other
  rw [if_neg (by omega), if_neg (by omega), h1, h2]
  simp only [Int.toNat_natCast]
  congr 1
  ring

theorem pair_symm {M : Mesh} (h : M.Conforming n) (d : Fin n → ℝ) (dB : ℕ → ℝ) (i j : Fin n) : pair M d dB i j = pair M d dB j i := by
  have key : ∀ i j : Fin n, ∀ e, M.nb i e = (j : ℕ) → pair M d dB i j = conductance M d dB i e := by
    intro i j e he
    unfold pair
    rw [Finset.sum_eq_single e, if_pos he]
    · intro e' _ hne
      rw [if_neg]
      intro he'
      exact hne (h.distinct i i.2 (he'.trans he.symm))
    · intro hn
      exact absurd (Finset.mem_univ _) hn
  have zero : ∀ i j : Fin n, (∀ e, M.nb i e ≠ (j : ℕ)) → pair M d dB i j = 0 := by
    intro i j hn
    unfold pair
    exact Finset.sum_eq_zero fun e _ => if_neg (hn e)
  by_cases hx : ∃ e, M.nb i e = (j : ℕ)
  · obtain ⟨e, he⟩ := hx
    obtain ⟨k, hk, hk2, -, e', he', hlen⟩ := h.inner i i.2 e (by omega)
    obtain rfl : k = j := by omega
    rw [key i j e he, key j i e' he']
    unfold conductance
    rw [he, he', value_inner, value_inner, hlen, gap_symm he he']
    ring
  · push Not at hx
    have hy : ∀ e, M.nb j e ≠ (i : ℕ) := by
      intro e he
      obtain ⟨k, hk, hk2, -, e', he', -⟩ := h.inner j j.2 e (by omega)
      obtain rfl : k = i := by omega
      exact hx e' he'
    rw [zero i j hx, zero j i hy]

theorem conductance_nonneg {M : Mesh} (h : M.Conforming n) {d : Fin n → ℝ} {dB : ℕ → ℝ} (hd : ∀ i, 0 ≤ d i) (hB : ∀ k, 0 ≤ dB k) (i : Fin n)
    (e : Fin 3) : 0 ≤ conductance M d dB i e := by
  have hv : 0 ≤ value d dB (M.nb i e) := by
    unfold value
    split_ifs
    · exact hB _
    · exact hd _
    · exact le_rfl
  have := h.len i i.2 e
  have := gap_pos h i.2 e
  have := hd i
  unfold conductance
  positivity

theorem conductance_pos {M : Mesh} (h : M.Conforming n) {d : Fin n → ℝ} {dB : ℕ → ℝ} (hd : ∀ i, 0 < d i) (hB : ∀ k, 0 ≤ dB k) (i : Fin n)
    (e : Fin 3) : 0 < conductance M d dB i e := by
  have hv : 0 ≤ value d dB (M.nb i e) := by
    unfold value
    split_ifs
    · exact hB _
    · exact (hd _).le
    · exact le_rfl
  have := h.len i i.2 e
  have := gap_pos h i.2 e
  have := hd i
  unfold conductance
  positivity

theorem pair_nonneg {M : Mesh} (h : M.Conforming n) {d : Fin n → ℝ} {dB : ℕ → ℝ} (hd : ∀ i, 0 ≤ d i) (hB : ∀ k, 0 ≤ dB k) (i j : Fin n) :
    0 ≤ pair M d dB i j := by
  unfold pair
  refine Finset.sum_nonneg fun e _ => ?_
  split_ifs
  · exact conductance_nonneg h hd hB i e
  · exact le_rfl

/-- Summation by parts. -/
theorem by_parts {w : Fin n → Fin n → ℝ} (hw : ∀ i j, w i j = w j i) (u v : Fin n → ℝ) :
    ∑ i, v i * ∑ j, w i j * (u j - u i) = -(1 / 2) * ∑ i, ∑ j, w i j * ((u j - u i) * (v j - v i)) := by
  have h1 : ∑ i, v i * ∑ j, w i j * (u j - u i) = ∑ i, ∑ j, w i j * (v i * (u j - u i)) := by
    refine Finset.sum_congr rfl fun i _ => ?_
    rw [Finset.mul_sum]
    exact Finset.sum_congr rfl fun j _ => by ring
  have h2 : ∑ i, ∑ j, w i j * (v i * (u j - u i)) = ∑ i, ∑ j, w i j * (v j * (u i - u j)) := by
    rw [Finset.sum_comm]
    refine Finset.sum_congr rfl fun i _ => Finset.sum_congr rfl fun j _ => ?_
    rw [hw j i]
  have h3 : ∑ i, ∑ j, w i j * ((u j - u i) * (v j - v i)) =
      -∑ i, ∑ j, w i j * (v i * (u j - u i)) - ∑ i, ∑ j, w i j * (v j * (u i - u j)) := by
    rw [← Finset.sum_neg_distrib, ← Finset.sum_sub_distrib]
    refine Finset.sum_congr rfl fun i _ => ?_
    rw [← Finset.sum_neg_distrib, ← Finset.sum_sub_distrib]
    exact Finset.sum_congr rfl fun j _ => by ring
  rw [h3, h1, ← h2]
  ring

/-- Symmetric part and sign. -/
theorem form_eq {M : Mesh} (h : M.Conforming n) {d : Fin n → ℝ} (dB : ℕ → ℝ) (hd : ∀ i, 0 < d i) (u v : Fin n → ℝ) :
    ∑ i, v i * inflow M d dB u (fun _ => 0) i = -(1 / 2) * ∑ i, ∑ j, pair M d dB i j * ((u j - u i) * (v j - v i)) -
      ∑ i : Fin n, ∑ e, if M.nb i e < 0 then conductance M d dB i e * (u i * v i) else 0 := by
  rw [← by_parts (pair_symm h d dB), ← Finset.sum_sub_distrib]
  refine Finset.sum_congr rfl fun i _ => ?_
  rw [inflow_pairs h dB u _ (hd i), mul_add, sub_eq_add_neg, ← Finset.sum_neg_distrib]
  congr 1
  unfold outer
  rw [Finset.mul_sum]
  refine Finset.sum_congr rfl fun e _ => ?_
  split_ifs <;> ring

theorem form_symm {M : Mesh} (h : M.Conforming n) {d : Fin n → ℝ} (dB : ℕ → ℝ) (hd : ∀ i, 0 < d i) (u v : Fin n → ℝ) :
    ∑ i, v i * inflow M d dB u (fun _ => 0) i = ∑ i, u i * inflow M d dB v (fun _ => 0) i := by
  rw [form_eq h dB hd, form_eq h dB hd]
  congr 2
  · refine Finset.sum_congr rfl fun i _ => Finset.sum_congr rfl fun j _ => ?_
    ring
  · funext i
    refine Finset.sum_congr rfl fun e _ => ?_
    split_ifs <;> ring

theorem form_nonpos {M : Mesh} (h : M.Conforming n) {d : Fin n → ℝ} {dB : ℕ → ℝ} (hd : ∀ i, 0 < d i) (hB : ∀ k, 0 ≤ dB k) (u : Fin n → ℝ) :
    ∑ i, u i * inflow M d dB u (fun _ => 0) i ≤ 0 := by
  rw [form_eq h dB hd]
  have h1 : 0 ≤ ∑ i, ∑ j, pair M d dB i j * ((u j - u i) * (u j - u i)) :=
    Finset.sum_nonneg fun i _ => Finset.sum_nonneg fun j _ => mul_nonneg (pair_nonneg h (fun i => (hd i).le) hB i j) (mul_self_nonneg _)
  have h2 : 0 ≤ ∑ i : Fin n, ∑ e, if M.nb i e < 0 then conductance M d dB i e * (u i * u i) else 0 := by
    refine Finset.sum_nonneg fun i _ => Finset.sum_nonneg fun e _ => ?_
    split_ifs
    · exact mul_nonneg (conductance_nonneg h (fun i => (hd i).le) hB i e) (mul_self_nonneg _)
    · exact le_rfl
  linarith

end Verif.Kv
