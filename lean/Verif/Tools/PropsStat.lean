import Verif.Tools.Props
import Mathlib.Analysis.Real.Sqrt
import Mathlib.Algebra.Order.Chebyshev
import Mathlib.Tactic.LinearCombination

/-! C57: covariance, correlation and error norms. -/

set_option linter.unusedSectionVars false

namespace Verif.Tools

variable {K : Type*} [Field K] [LinearOrder K] [IsStrictOrderedRing K]

/-- The mean of a sample given as a function on indices. -/
def avg {n : ℕ} (x : Fin n → K) : K := (∑ i, x i) / n

theorem mean_ofFn {n : ℕ} (x : Fin n → K) : mean (List.ofFn x) = avg x := by
  simp [mean, avg, List.sum_ofFn]

theorem cov_ofFn {n : ℕ} (x y : Fin n → K) :
    cov (List.ofFn x) (List.ofFn y) = some ((∑ i, (x i - avg x) * (y i - avg y)) / n) := by
  unfold cov
  simp only [List.length_ofFn, if_true, mean_ofFn]
  congr 2
  have : (((List.ofFn x).map (· - avg x)).zip ((List.ofFn y).map (· - avg y))).map
      (fun p => p.1 * p.2) = List.ofFn fun i => (x i - avg x) * (y i - avg y) := by
    apply List.ext_getElem
    · simp
    · intro i h1 h2
      simp
  rw [this, List.sum_ofFn]

/-- C57: covariance is the mean of products minus the product of means, so it is symmetric and
does not change when a constant is added to either sample; samples of different length are
refused. -/
theorem C57_cov {n : ℕ} (hn : n ≠ 0) (x y : Fin n → K) :
    cov (List.ofFn x) (List.ofFn y) =
      some ((∑ i, x i * y i) / n - (∑ i, x i) / n * ((∑ i, y i) / n)) ∧
    cov (List.ofFn x) (List.ofFn y) = cov (List.ofFn y) (List.ofFn x) ∧
    (∀ c, cov (List.ofFn fun i => x i + c) (List.ofFn y) = cov (List.ofFn x) (List.ofFn y)) ∧
    (∀ m (z : Fin m → K), m ≠ n → cov (List.ofFn x) (List.ofFn z) = none) := by
  have hn' : (n : K) ≠ 0 := Nat.cast_ne_zero.2 hn
  refine ⟨?_, ?_, ?_, ?_⟩
  · rw [cov_ofFn]
    congr 1
    have : ∀ i, (x i - avg x) * (y i - avg y) = x i * y i - avg y * x i - avg x * y i + avg x * avg y :=
      fun i => by ring
    simp only [this, Finset.sum_add_distrib, Finset.sum_sub_distrib, ← Finset.mul_sum,
      Finset.sum_const, Finset.card_univ, Fintype.card_fin, nsmul_eq_mul]
    unfold avg
    field_simp
    ring
  · rw [cov_ofFn, cov_ofFn]
    congr 2
    exact Finset.sum_congr rfl fun i _ => mul_comm _ _
  · intro c
    rw [cov_ofFn, cov_ofFn]
    congr 2
    refine Finset.sum_congr rfl fun i _ => ?_
    have : avg (fun i => x i + c) = avg x + c := by
      unfold avg
      rw [Finset.sum_add_distrib]
      simp
      field_simp
    rw [this]; ring
  · intro m z hm
    unfold cov
    rw [if_neg (by simpa using hm.symm)]

/-- C57: the correlation of two samples lies in `[-1, 1]` and is symmetric; a sample has correlation
one with any increasing affine image of itself and minus one with a decreasing one, unless it is
constant, when the result is zero. -/
theorem C57_corr {n : ℕ} (hn : n ≠ 0) (x y : Fin n → ℝ) :
    ∃ r, corr Real.sqrt (List.ofFn x) (List.ofFn y) = some r ∧ -1 ≤ r ∧ r ≤ 1 ∧
      corr Real.sqrt (List.ofFn y) (List.ofFn x) = some r ∧
      ((∃ c, ∀ i, x i = c) → r = 0) ∧
      (∀ a b, (∀ i, y i = a * x i + b) → (¬ ∃ c, ∀ i, x i = c) → 0 < a → r = 1) ∧
      (∀ a b, (∀ i, y i = a * x i + b) → (¬ ∃ c, ∀ i, x i = c) → a < 0 → r = -1) := by
  have hn' : (0 : ℝ) < n := by exact_mod_cast Nat.pos_of_ne_zero hn
  set u : Fin n → ℝ := fun i => x i - avg x with hu
  set v : Fin n → ℝ := fun i => y i - avg y with hv
  have hcxx : cov (List.ofFn x) (List.ofFn x) = some ((∑ i, u i * u i) / n) := cov_ofFn x x
  have hcyy : cov (List.ofFn y) (List.ofFn y) = some ((∑ i, v i * v i) / n) := cov_ofFn y y
  have hcxy : cov (List.ofFn x) (List.ofFn y) = some ((∑ i, u i * v i) / n) := cov_ofFn x y
  have hcyx : cov (List.ofFn y) (List.ofFn x) = some ((∑ i, u i * v i) / n) := by
    rw [(C57_cov hn y x).2.1]; exact hcxy
  have hA : 0 ≤ ∑ i, u i * u i := Finset.sum_nonneg fun i _ => mul_self_nonneg _
  have hB : 0 ≤ ∑ i, v i * v i := Finset.sum_nonneg fun i _ => mul_self_nonneg _
  have hcs : (∑ i, u i * v i) ^ 2 ≤ (∑ i, u i * u i) * ∑ i, v i * v i := by
    have := Finset.sum_mul_sq_le_sq_mul_sq Finset.univ u v
    simpa [sq] using this
  -- variance zero means constant
  have hzero : (∑ i, u i * u i) / n = 0 ↔ ∃ c, ∀ i, x i = c := by
    rw [div_eq_zero_iff, or_iff_left hn'.ne', Finset.sum_eq_zero_iff_of_nonneg
      (fun i _ => mul_self_nonneg _)]
    constructor
    · intro h
      exact ⟨avg x, fun i => by
        have := mul_self_eq_zero.1 (h i (Finset.mem_univ i))
        simp only [hu] at this; linarith⟩
    · rintro ⟨c, hc⟩ i -
      have : avg x = c := by
        unfold avg
        rw [Finset.sum_congr rfl fun i _ => hc i]
        simp
        field_simp
      simp [hu, this, hc i]
  have hr : ∃ r, corr Real.sqrt (List.ofFn x) (List.ofFn y) = some r ∧
      corr Real.sqrt (List.ofFn y) (List.ofFn x) = some r ∧
      r = if (∑ i, u i * u i) / n = 0 ∨ (∑ i, v i * v i) / n = 0 then 0
        else (∑ i, u i * v i) / n / Real.sqrt ((∑ i, u i * u i) / n * ((∑ i, v i * v i) / n)) := by
    refine ⟨_, ?_, ?_, rfl⟩
    · unfold corr
      rw [hcxx, hcyy, hcxy]
    · unfold corr
      rw [hcxx, hcyy, hcyx]
      simp only [or_comm, mul_comm]
  obtain ⟨r, h1, h2, hval⟩ := hr
  generalize hAd : ∑ i, u i * u i = A at *
  generalize hBd : ∑ i, v i * v i = B at *
  generalize hCd : ∑ i, u i * v i = C at *
  have habs : r ^ 2 ≤ 1 := by
    rw [hval]
    split_ifs with h
    · norm_num
    · push Not at h
      have hA0 : 0 < A / n := lt_of_le_of_ne (div_nonneg hA hn'.le) h.1.symm
      have hB0 : 0 < B / n := lt_of_le_of_ne (div_nonneg hB hn'.le) h.2.symm
      rw [div_pow, Real.sq_sqrt (mul_pos hA0 hB0).le, div_le_one (mul_pos hA0 hB0), div_pow,
        div_mul_div_comm, ← sq]
      exact div_le_div_of_nonneg_right hcs (by positivity)
  refine ⟨r, h1, (abs_le.1 ((sq_le_one_iff_abs_le_one r).1 habs)).1,
    (abs_le.1 ((sq_le_one_iff_abs_le_one r).1 habs)).2, h2, ?_, ?_, ?_⟩
  · intro h
    rw [hval, if_pos (Or.inl (hzero.2 h))]
  · intro a b hy hnc ha
    have hva : ∀ i, v i = a * u i := by
      intro i
      have : avg y = a * avg x + b := by
        unfold avg
        rw [Finset.sum_congr rfl fun i _ => hy i, Finset.sum_add_distrib, ← Finset.mul_sum]
        simp
        field_simp
      simp only [hu, hv, this, hy i]; ring
    have hBA : B = a ^ 2 * A := by
      rw [← hBd, ← hAd, Finset.mul_sum]
      exact Finset.sum_congr rfl fun i _ => by rw [hva i]; ring
    have hCA : C = a * A := by
      rw [← hCd, ← hAd, Finset.mul_sum]
      exact Finset.sum_congr rfl fun i _ => by rw [hva i]; ring
    have hA0 : 0 < A / n := lt_of_le_of_ne (div_nonneg hA hn'.le) fun h => hnc (hzero.1 h.symm)
    rw [hval, if_neg, hBA, hCA]
    · have : A / n * (a ^ 2 * A / n) = (a * (A / n)) ^ 2 := by ring
      rw [this, Real.sqrt_sq (by positivity), mul_div_assoc, div_self (by positivity)]
    · push Not
      refine ⟨hA0.ne', ?_⟩
      rw [hBA, mul_div_assoc]
      positivity
  · intro a b hy hnc ha
    have hva : ∀ i, v i = a * u i := by
      intro i
      have : avg y = a * avg x + b := by
        unfold avg
        rw [Finset.sum_congr rfl fun i _ => hy i, Finset.sum_add_distrib, ← Finset.mul_sum]
        simp
        field_simp
      simp only [hu, hv, this, hy i]; ring
    have hBA : B = a ^ 2 * A := by
      rw [← hBd, ← hAd, Finset.mul_sum]
      exact Finset.sum_congr rfl fun i _ => by rw [hva i]; ring
    have hCA : C = a * A := by
      rw [← hCd, ← hAd, Finset.mul_sum]
      exact Finset.sum_congr rfl fun i _ => by rw [hva i]; ring
    have hA0 : 0 < A / n := lt_of_le_of_ne (div_nonneg hA hn'.le) fun h => hnc (hzero.1 h.symm)
    have hna : 0 < -a := by linarith
    rw [hval, if_neg, hBA, hCA]
    · have : A / n * (a ^ 2 * A / n) = (-a * (A / n)) ^ 2 := by ring
      rw [this, Real.sqrt_sq (mul_pos hna hA0).le, mul_div_assoc, neg_mul, div_neg,
        div_self (mul_ne_zero ha.ne hA0.ne')]
    · push Not
      refine ⟨hA0.ne', ?_⟩
      rw [hBA, mul_div_assoc]
      have : 0 < a ^ 2 := sq_pos_of_neg ha
      exact (mul_pos this hA0).ne'

theorem norm_ofFn {n : ℕ} (z : Fin n → ℝ) :
    norm Real.sqrt (List.ofFn z) = Real.sqrt (∑ i, z i ^ 2) := by
  unfold norm
  congr 1
  rw [List.map_ofFn, List.sum_ofFn]
  exact Finset.sum_congr rfl fun i _ => by simp [sq]

theorem zipWith_ofFn {n : ℕ} (x y : Fin n → ℝ) :
    (List.ofFn x).zipWith (· - ·) (List.ofFn y) = List.ofFn fun i => x i - y i := by
  apply List.ext_getElem
  · simp
  · intro i h1 h2; simp

/-- C57: errors against a reference.  In the two-norm the result is `‖x - y‖`, relative to a
reference that is not zero `‖x - y‖ / ‖y‖`; in the maximum norm the same with the greatest absolute
values; without reference the maximum norm gives the absolute error. -/
theorem C57_err {n : ℕ} (hn : n ≠ 0) (x y : Fin n → ℝ) :
    err Real.sqrt (List.ofFn x) (some (List.ofFn y)) true false =
      some (.num (Real.sqrt (∑ i, (x i - y i) ^ 2))) ∧
    ((∃ i, y i ≠ 0) → err Real.sqrt (List.ofFn x) (some (List.ofFn y)) true true =
      some (.num (Real.sqrt (∑ i, (x i - y i) ^ 2) / Real.sqrt (∑ i, y i ^ 2)))) ∧
    (∃ e m, IsMax (List.ofFn fun i => |x i - y i|) e ∧ IsMax (List.ofFn fun i => |y i|) m ∧
      err Real.sqrt (List.ofFn x) (some (List.ofFn y)) false false = some (.num e) ∧
      ((∃ i, y i ≠ 0) →
        err Real.sqrt (List.ofFn x) (some (List.ofFn y)) false true = some (.num (e / m)))) ∧
    (∃ e, IsMax (List.ofFn fun i => |x i|) e ∧
      err Real.sqrt (List.ofFn x) none false true = some (.num e)) := by
  have hmax : ∀ z : Fin n → ℝ, ∃ m, maxOf (List.ofFn z) = some m := by
    intro z
    obtain ⟨m, rfl⟩ := Nat.exists_eq_succ_of_ne_zero hn
    rw [List.ofFn_succ]
    exact ⟨_, rfl⟩
  refine ⟨?_, ?_, ?_, ?_⟩
  · simp only [err, zipWith_ofFn, norm_ofFn, if_true, Bool.false_eq_true, if_false]
  · rintro ⟨i, hi⟩
    simp only [err, zipWith_ofFn, Option.getD_some, norm_ofFn, if_true]
    unfold fdiv
    rw [if_neg]
    refine (Real.sqrt_pos.2 ?_).ne'
    exact Finset.sum_pos' (fun j _ => sq_nonneg _) ⟨i, Finset.mem_univ i, by positivity⟩
  · obtain ⟨e, he⟩ := hmax fun i => |x i - y i|
    obtain ⟨m, hm⟩ := hmax fun i => |y i|
    have he' : maxOf ((List.ofFn fun i => x i - y i).map abs) = some e := by
      rw [List.map_ofFn]; exact he
    have hm' : maxOf ((List.ofFn y).map abs) = some m := by
      rw [List.map_ofFn]; exact hm
    refine ⟨e, m, maxOf_spec _ _ he, maxOf_spec _ _ hm, ?_, ?_⟩
    · simp only [err, zipWith_ofFn, Bool.false_eq_true, if_false, he']
    · rintro ⟨i, hi⟩
      simp only [err, zipWith_ofFn, Bool.false_eq_true, if_false, he', Option.bind_some, hm']
      unfold fdiv
      rw [if_neg]
      have := (maxOf_spec _ _ hm).2 |y i| (by simp [List.mem_ofFn])
      have h0 : 0 < |y i| := abs_pos.2 hi
      linarith
  · obtain ⟨e, he⟩ := hmax fun i => |x i|
    have he' : maxOf ((List.ofFn x).map abs) = some e := by
      rw [List.map_ofFn]; exact he
    refine ⟨e, maxOf_spec _ _ he, ?_⟩
    simp only [err, Bool.false_eq_true, if_false, he', Option.bind_none]

/-- C57, disagreement: the documentation says that the absolute error is returned when the
denominator is zero or `y` is omitted.  It is not, for any data: the result is infinite, or not a
number if there is no error at all. -/
theorem C57_err_zero_reference {n : ℕ} (x : Fin n → ℝ) (two : Bool) (hn : n ≠ 0)
    (y : Option (List ℝ)) (hy : y = some (List.ofFn fun _ : Fin n => (0 : ℝ)) ∨
      (y = none ∧ two = true)) :
    ((∃ i, x i ≠ 0) → err Real.sqrt (List.ofFn x) y two true = some .inf) ∧
    ((∀ i, x i = 0) → err Real.sqrt (List.ofFn x) y two true = some .nan) := by
  have key : ∀ e : ℝ, (e ≠ 0 → some (fdiv e 0) = some .inf) ∧ (e = 0 → some (fdiv e 0) = some .nan) := by
    intro e
    unfold fdiv
    constructor <;> intro h <;> simp [h]
  have h0 : norm Real.sqrt (List.ofFn fun _ : Fin n => (0 : ℝ)) = 0 := by
    rw [norm_ofFn]; simp
  have hpos : (∃ i, x i ≠ 0) → Real.sqrt (∑ i, x i ^ 2) ≠ 0 := by
    rintro ⟨i, hi⟩
    exact (Real.sqrt_pos.2 (Finset.sum_pos' (fun j _ => sq_nonneg _) ⟨i, Finset.mem_univ i, by positivity⟩)).ne'
  have hzero : (∀ i, x i = 0) → Real.sqrt (∑ i, x i ^ 2) = 0 := fun h => by simp [h]
  rcases hy with rfl | ⟨rfl, rfl⟩
  · cases two with
    | true =>
      simp only [err, if_true, Option.getD_some, h0, zipWith_ofFn, norm_ofFn, sub_zero]
      exact ⟨fun h => (key _).1 (hpos h), fun h => (key _).2 (hzero h)⟩
    | false =>
      have hmax : ∀ z : Fin n → ℝ, ∃ m, maxOf ((List.ofFn z).map abs) = some m := by
        intro z
        obtain ⟨m, rfl⟩ := Nat.exists_eq_succ_of_ne_zero hn
        rw [List.ofFn_succ]
        exact ⟨_, rfl⟩
      obtain ⟨k, hk⟩ := hmax fun _ => 0
      have hk0 : k = 0 := by
        have := (maxOf_spec _ _ hk).1
        simp only [List.map_ofFn, List.mem_ofFn, Function.comp] at this
        obtain ⟨_, h⟩ := this
        rw [← h, abs_zero]
      obtain ⟨e, he⟩ := hmax x
      have hs := maxOf_spec _ _ he
      simp only [List.map_ofFn] at hs
      simp only [err, Bool.false_eq_true, if_false, Option.bind_some, hk, hk0, zipWith_ofFn, sub_zero, he]
      refine ⟨fun ⟨i, hi⟩ => (key _).1 ?_, fun h => (key _).2 ?_⟩
      · have := hs.2 |x i| (by simp [List.mem_ofFn])
        have h0 : 0 < |x i| := abs_pos.2 hi
        exact (lt_of_lt_of_le h0 this).ne'
      · have := hs.1
        simp only [List.mem_ofFn, Function.comp] at this
        obtain ⟨i, hi⟩ := this
        rw [← hi, h i, abs_zero]
  · have : norm Real.sqrt [(0 : ℝ)] = 0 := by simp [norm]
    simp only [err, if_true, Option.getD_none, this, norm_ofFn]
    exact ⟨fun h => (key _).1 (hpos h), fun h => (key _).2 (hzero h)⟩

example : err Real.sqrt (List.ofFn ![1, 2]) (some (List.ofFn fun _ : Fin 2 => (0 : ℝ))) true true = some .inf :=
  (C57_err_zero_reference ![1, 2] true (by decide) _ (Or.inl rfl)).1 ⟨0, by simp⟩

example : cov [(1 : ℚ), 2, 3] [2, 4, 9] = some (7 / 3) := by decide +kernel
example : ¬ ∃ c, ∀ i : Fin 2, (![1, 2] : Fin 2 → ℝ) i = c := by
  rintro ⟨c, hc⟩
  have h0 := hc 0
  have h1 := hc 1
  simp at h0 h1
  linarith

end Verif.Tools
