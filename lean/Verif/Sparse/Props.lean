import Verif.Sparse.Lemmas

/-! # C21: `Sparse` behaves like the dense matrix -/

namespace Verif.Sparse

set_option linter.unusedSectionVars false

variable {K : Type*} [Field K] [DecidableEq K]

theorem fold_dense (f : ℕ → ℕ → K) (ks : List Key) : ∀ l : List (Key × K), (keys l).Nodup → NZ l →
    let r := ks.foldl (fun l k => if f k.1 k.2 ≠ 0 then put l k (f k.1 k.2) else l) l
    (keys r).Nodup ∧ NZ r ∧ (∀ k ∈ keys r, k ∈ keys l ∨ k ∈ ks) ∧
      ∀ k, look r k = if k ∈ ks ∧ f k.1 k.2 ≠ 0 then f k.1 k.2 else look l k := by
  induction ks with
  | nil => intro l h1 h2; simp [h1, h2]
  | cons a ks ih =>
    intro l h1 h2
    simp only [List.foldl_cons]
    by_cases hf : f a.1 a.2 ≠ 0
    · rw [if_pos hf]
      obtain ⟨k1, k2, k3, k4⟩ := ih (put l a (f a.1 a.2)) (nodup_put h1 _ _) (nz_put h2 _ hf)
      refine ⟨k1, k2, fun k hk => ?_, fun k => ?_⟩
      · rcases k3 k hk with h | h
        · rw [keys_put] at h
          split_ifs at h
          · exact Or.inl h
          · rw [List.mem_append] at h
            rcases h with h | h
            · exact Or.inl h
            · right; simp at h; simp [h]
        · right; simp [h]
      · rw [k4 k, look_put]
        by_cases hka : k = a
        · subst hka
          by_cases hm : k ∈ ks <;> simp [hm, hf]
        · simp [hka]
    · rw [if_neg hf]
      obtain ⟨k1, k2, k3, k4⟩ := ih l h1 h2
      refine ⟨k1, k2, fun k hk => (k3 k hk).imp_right (fun h => by simp [h]), fun k => ?_⟩
      rw [k4 k]
      by_cases hka : k = a
      · subst hka
        simp [hf]
      · simp [hka]

theorem ofDense_spec (M N : ℕ) (f : ℕ → ℕ → K) :
    WF (Mat.ofDense M N f) ∧ NZ (Mat.ofDense M N f).data ∧
      ∀ k, look (Mat.ofDense M N f).data k = if k.1 < M ∧ k.2 < N then f k.1 k.2 else 0 := by
  have e : (Mat.ofDense M N f).data = ((List.range M).flatMap (fun i => (List.range N).map (fun j => (i, j)))).foldl
      (fun l k => if f k.1 k.2 ≠ 0 then put l k (f k.1 k.2) else l) [] := by
    unfold Mat.ofDense
    rw [List.foldl_flatMap]
    simp only [List.foldl_map]
  have hm : ∀ k : Key, k ∈ (List.range M).flatMap (fun i => (List.range N).map (fun j => (i, j))) ↔ k.1 < M ∧ k.2 < N := by
    rintro ⟨a, b⟩
    simp [List.mem_flatMap]
  obtain ⟨h1, h2, h3, h4⟩ := fold_dense f ((List.range M).flatMap (fun i => (List.range N).map (fun j => (i, j)))) [] (by simp) (by simp [NZ])
  rw [← e] at h1 h2 h3 h4
  refine ⟨⟨h1, fun k hk => ?_⟩, h2, fun k => ?_⟩
  · rcases h3 k hk with h | h
    · simp at h
    · exact (hm k).mp h
  · rw [h4 k]
    simp only [hm k]
    by_cases h : k.1 < M ∧ k.2 < N
    · by_cases hf : f k.1 k.2 = 0
      · simp [hf, look_nil]
      · simp [h, hf]
    · rw [if_neg (fun hh => h hh.1), if_neg h, look_nil]

/-- Every way of building a matrix gives the dense meaning. -/
theorem eval_spec (e : Expr K) (h : e.Ok) :
    ∃ A, e.eval = some A ∧ WF A ∧ A.M = e.dims.1 ∧ A.N = e.dims.2 ∧ (∀ k, look A.data k = e.den k.1 k.2) ∧
      (e.NoZeroScale → NZ A.data) := by
  induction e with
  | zero M N => exact ⟨_, rfl, ⟨by simp [Mat.empty], by simp [Mat.empty]⟩, rfl, rfl, fun k => rfl, fun _ => by simp [Mat.empty, NZ]⟩
  | dense M N f =>
    obtain ⟨h1, h2, h3⟩ := ofDense_spec M N f
    exact ⟨_, rfl, h1, rfl, rfl, h3, fun _ => h2⟩
  | set e i j x ih =>
    obtain ⟨A, h1, h2, h3, h4, h5, h6⟩ := ih h.1
    obtain ⟨B, k1, k2, k3, k4, k5, k6⟩ := set_spec h2 i j x (h3 ▸ h.2.1) (h4 ▸ h.2.2)
    refine ⟨B, ?_, k2, k3.trans h3, k4.trans h4, fun k => ?_, fun hz => k6 (h6 hz)⟩
    · simp only [Expr.eval, h1, Option.bind_eq_bind, Option.bind_some, k1]
    · rw [k5 k, h5 k]
      simp only [Expr.den, Prod.ext_iff]
  | copy e ih =>
    obtain ⟨A, h1, h2, h3, h4, h5, h6⟩ := ih h
    obtain ⟨B, k1, k2, k3, k4, k5, k6⟩ := copy_spec h2
    refine ⟨B, ?_, k2, k3.trans h3, k4.trans h4, fun k => ?_, fun _ => k6⟩
    · simp only [Expr.eval, h1, Option.bind_eq_bind, Option.bind_some, k1]
    · rw [k5 k, h5 k]; rfl
  | add a b iha ihb =>
    obtain ⟨A, a1, a2, a3, a4, a5, a6⟩ := iha h.1
    obtain ⟨B, b1, b2, b3, b4, b5, b6⟩ := ihb h.2.1
    obtain ⟨C, c1, c2, c3, c4, c5, c6⟩ := copy_spec b2
    obtain ⟨D, d1, d2, d3, d4, d5, d6⟩ := fold_add A.data C c2 a2.nodup (by
      intro k hk
      have := a2.inside k hk
      rw [c3, c4, b3, b4, ← h.2.2, ← a3, ← a4]
      exact this)
    refine ⟨D, ?_, d2, (d3.trans c3).trans b3, (d4.trans c4).trans b4, fun k => ?_, fun _ => d6 c6⟩
    · simp only [Expr.eval, a1, b1, Option.bind_eq_bind, Option.bind_some, Mat.add, c1]
      exact d1
    · rw [d5 k, c5 k, a5 k, b5 k]; rfl
  | scale c e ih =>
    obtain ⟨A, h1, h2, h3, h4, h5, h6⟩ := ih h
    obtain ⟨B, k1, k2, k3, k4, k5, k6⟩ := copy_spec h2
    have hk : keys (B.data.map (fun e => (e.1, c * e.2))) = keys B.data := by simp [keys, List.map_map]
    refine ⟨{ B with data := B.data.map (fun e => (e.1, c * e.2)) }, ?_, ⟨by simp only [hk]; exact k2.nodup, by simp only [hk]; exact k2.inside⟩, k3.trans h3, k4.trans h4, fun k => ?_, fun hz => ?_⟩
    · simp only [Expr.eval, h1, Option.bind_eq_bind, Option.bind_some, Mat.scale, k1]
    · simp only [look_map_mul, k5 k, h5 k]; rfl
    · intro x hx
      rw [List.mem_map] at hx
      obtain ⟨y, hy, rfl⟩ := hx
      exact mul_ne_zero hz.1 (k6 y hy)

/-- **C21.** However a matrix was built, reading its elements gives those of the dense matrix; reading or writing outside raises. -/
theorem C21_elements (e : Expr K) (h : e.Ok) :
    ∃ A, e.eval = some A ∧ (∀ i j, i < e.dims.1 → j < e.dims.2 → A.get i j = some (e.den i j)) ∧
      (∀ i j, ¬ (i < e.dims.1 ∧ j < e.dims.2) → A.get i j = none ∧ ∀ x, A.set i j x = none) ∧
      A.todense = (List.range e.dims.1).map (fun i => (List.range e.dims.2).map (fun j => e.den i j)) := by
  obtain ⟨A, h1, h2, h3, h4, h5, -⟩ := eval_spec e h
  refine ⟨A, h1, fun i j hi hj => ?_, fun i j hij => ⟨?_, fun x => ?_⟩, ?_⟩
  · rw [get_spec, if_pos ⟨h3 ▸ hi, h4 ▸ hj⟩, h5]
  · rw [get_spec, if_neg (by rw [h3, h4]; exact hij)]
  · exact set_outside A i j x (by rw [h3, h4]; exact hij)
  · unfold Mat.todense
    rw [h3, h4]
    apply List.map_congr_left
    intro i _
    apply List.map_congr_left
    intro j _
    rw [← h5 (i, j)]
    unfold look
    cases A.data.lookup (i, j) <;> simp

/-- **C21.** Products with vectors, also of the transpose, and with the columns of matrices are those of the dense matrix; vectors
of the wrong length are refused. -/
theorem C21_products (e : Expr K) (h : e.Ok) :
    ∃ A, e.eval = some A ∧
      (∀ x : List K, x.length = e.dims.2 → ∃ y, A.mulVec x = some y ∧ y.length = e.dims.1 ∧
        ∀ i < e.dims.1, y.getD i 0 = ∑ j ∈ Finset.range e.dims.2, e.den i j * x.getD j 0) ∧
      (∀ x : List K, x.length = e.dims.1 → ∃ y, A.transMult x = some y ∧ y.length = e.dims.2 ∧
        ∀ j < e.dims.2, y.getD j 0 = ∑ i ∈ Finset.range e.dims.1, e.den i j * x.getD i 0) ∧
      (∀ (B : ℕ → ℕ → K) (c : ℕ), (A.mulCol B c).length = e.dims.1 ∧
        ∀ i < e.dims.1, (A.mulCol B c).getD i 0 = ∑ j ∈ Finset.range e.dims.2, e.den i j * B j c) ∧
      (∀ x : List K, x.length ≠ e.dims.2 → A.mulVec x = none) ∧ (∀ x : List K, x.length ≠ e.dims.1 → A.transMult x = none) := by
  obtain ⟨A, h1, h2, h3, h4, h5, -⟩ := eval_spec e h
  refine ⟨A, h1, fun x hx => ?_, fun x hx => ?_, fun B c => ?_, fun x hx => ?_, fun x hx => ?_⟩
  · obtain ⟨k1, k2⟩ := fold_bump (fun k => k.1) (fun e => e.2 * x.getD e.1.2 0) A.data (List.replicate A.M 0)
    rw [List.length_replicate] at k1 k2
    refine ⟨_, by unfold Mat.mulVec; rw [if_pos (hx.trans h4.symm)], k1.trans h3, fun i hi => ?_⟩
    rw [k2 i (h3 ▸ hi), sum_row A.data A.N (fun j => x.getD j 0) h2.nodup (fun k hk => (h2.inside k hk).2) i]
    simp only [h5, h4]
    rw [getD_replicate, zero_add]
  · obtain ⟨k1, k2⟩ := fold_bump (fun k => k.2) (fun e => e.2 * x.getD e.1.1 0) A.data (List.replicate A.N 0)
    rw [List.length_replicate] at k1 k2
    refine ⟨_, by unfold Mat.transMult; rw [if_pos (hx.trans h3.symm)], k1.trans h4, fun j hj => ?_⟩
    rw [k2 j (h4 ▸ hj), sum_col A.data A.M (fun i => x.getD i 0) h2.nodup (fun k hk => (h2.inside k hk).1) j]
    simp only [h5, h3]
    rw [getD_replicate, zero_add]
  · obtain ⟨k1, k2⟩ := fold_bump (fun k => k.1) (fun e => e.2 * B e.1.2 c) A.data (List.replicate A.M 0)
    rw [List.length_replicate] at k1 k2
    refine ⟨k1.trans h3, fun i hi => ?_⟩
    unfold Mat.mulCol
    rw [k2 i (h3 ▸ hi), sum_row A.data A.N (fun j => B j c) h2.nodup (fun k hk => (h2.inside k hk).2) i]
    simp only [h5, h4]
    rw [getD_replicate, zero_add]
  · unfold Mat.mulVec; rw [if_neg (by rw [h4]; exact hx)]
  · unfold Mat.transMult; rw [if_neg (by rw [h3]; exact hx)]

/-- **C21.** `len(A)` is the number of nonzero elements, provided no matrix was multiplied by zero. -/
theorem C21_nonzeros (e : Expr K) (h : e.Ok) (hz : e.NoZeroScale) :
    ∃ A, e.eval = some A ∧ A.len =
      ((Finset.range e.dims.1 ×ˢ Finset.range e.dims.2).filter (fun k => e.den k.1 k.2 ≠ 0)).card := by
  obtain ⟨A, h1, h2, h3, h4, h5, h6⟩ := eval_spec e h
  refine ⟨A, h1, ?_⟩
  have hset : (keys A.data).toFinset = (Finset.range e.dims.1 ×ˢ Finset.range e.dims.2).filter (fun k => e.den k.1 k.2 ≠ 0) := by
    ext k
    rw [List.mem_toFinset, Finset.mem_filter, Finset.mem_product, Finset.mem_range, Finset.mem_range, ← h5 k, ← h3, ← h4]
    constructor
    · intro hk
      refine ⟨h2.inside k hk, ?_⟩
      obtain ⟨x, hx, rfl⟩ := List.mem_map.mp hk
      rw [look_mem h2.nodup hx]
      exact h6 hz x hx
    · rintro ⟨-, hk⟩
      by_contra hn
      exact hk (look_of_not_mem hn)
  rw [← hset, List.toFinset_card_of_nodup h2.nodup]
  simp [Mat.len, keys]

/-- **C21.** Multiplying by zero keeps the entries: `len(0 * A)` still counts them. -/
theorem C21_zero_scale_keeps_entries : ∃ A : Mat ℚ, (Expr.scale 0 (.set (.zero 1 1) 0 0 5)).eval = some A ∧
    A.get 0 0 = some 0 ∧ A.len = 1 := ⟨⟨1, 1, [((0, 0), 0)]⟩, by decide +kernel, by decide +kernel, rfl⟩

/-- **C21.** Matrices of different sizes are not detected by `+`: the result has the size of the second. -/
theorem C21_add_ignores_sizes : ∃ A : Mat ℚ, (Expr.add (.set (.zero 1 1) 0 0 5) (.zero 2 3)).eval = some A ∧
    A.M = 2 ∧ A.N = 3 ∧ A.get 0 0 = some 5 := ⟨⟨2, 3, [((0, 0), 5)]⟩, by decide +kernel, rfl, rfl, by decide +kernel⟩

/-! ## The hypotheses can be met -/

example : (Expr.add (.set (.set (.zero 2 2) 0 1 3) 0 1 0) (.scale 2 (.dense 2 2 (fun i j => (i + j : ℚ))))).Ok := by
  simp [Expr.Ok, Expr.dims]

example : (Expr.add (.set (.set (.zero 2 2) 0 1 3) 0 1 0) (.scale 2 (.dense 2 2 (fun i j => (i + j : ℚ))))).NoZeroScale := by
  simp [Expr.NoZeroScale]

example : (Expr.add (.set (.set (.zero 2 2) 0 1 3) 0 1 0) (.scale 2 (.dense 2 2 (fun i j => (i + j : ℚ))))).eval.map (fun A => A.mulVec [1, 10]) =
    some (some [20, 42]) := by decide +kernel

end Verif.Sparse
