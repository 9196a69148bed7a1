import Verif.Region.Lemmas
import Mathlib.Tactic.FinCases
import Mathlib.Tactic.NormNum

/-!
# C59: which triangles a line meets
-/

set_option linter.unusedSectionVars false

namespace Verif.Region

open Verif.Polygon

variable {K : Type*} [Field K] [LinearOrder K] [IsStrictOrderedRing K]

/-- Weight of the corner opposite to the side `t0 t1` at `p0`, and its growth along `p0 p1`. -/
private def wc (D : K) (p0 t0 t1 : Pt K) : K := ((t1.x - t0.x) * (p0.y - t0.y) - (t1.y - t0.y) * (p0.x - t0.x)) / D
private def wd (D : K) (p0 p1 t0 t1 : Pt K) : K := ((t1.x - t0.x) * (p1.y - p0.y) - (t1.y - t0.y) * (p1.x - p0.x)) / D

private def D3 (t0 t1 t2 : Pt K) : K := (t1.x - t0.x) * (t2.y - t0.y) - (t2.x - t0.x) * (t1.y - t0.y)

private theorem side_iff (p0 p1 t0 t1 t2 : Pt K) (D s : K) (hD : D ≠ 0) (hDe : D = D3 t0 t1 t2) :
    (wd D p0 p1 t0 t1 ≠ 0 ∧ s = -wc D p0 t0 t1 / wd D p0 p1 t0 t1 ∧
      0 ≤ wc D p0 t1 t2 + wd D p0 p1 t1 t2 * s ∧ 0 ≤ wc D p0 t2 t0 + wd D p0 p1 t2 t0 * s) ↔
    uDotTp p0 p1 t0 t1 ≠ 0 ∧ s = paramA p0 p1 t0 t1 ∧ 0 ≤ paramB p0 p1 t0 t1 ∧ paramB p0 p1 t0 t1 ≤ 1 := by
  have hd : wd D p0 p1 t0 t1 = uDotTp p0 p1 t0 t1 / D := by
    unfold wd uDotTp; congr 1; ring
  by_cases hu : uDotTp p0 p1 t0 t1 = 0
  · simp [hd, hu]
  have hd0 : wd D p0 p1 t0 t1 ≠ 0 := by rw [hd]; exact div_ne_zero hu hD
  have ha : -wc D p0 t0 t1 / wd D p0 p1 t0 t1 = paramA p0 p1 t0 t1 := by
    rw [hd]
    unfold wc paramA
    rw [div_div_eq_mul_div, neg_mul, div_mul_cancel₀ _ hD]
    congr 1
    ring
  have hw : (t1.x - t0.x) * -(p1.y - p0.y) + (t1.y - t0.y) * (p1.x - p0.x) = -uDotTp p0 p1 t0 t1 := by
    unfold uDotTp; ring
  have hb : paramB p0 p1 t0 t1 =
      ((t0.x - p0.x) * -(p1.y - p0.y) + (t0.y - p0.y) * (p1.x - p0.x)) / uDotTp p0 p1 t0 t1 := by
    unfold paramB
    rw [hw, neg_div_neg_eq]
  have h2 : wc D p0 t2 t0 + wd D p0 p1 t2 t0 * paramA p0 p1 t0 t1 = paramB p0 p1 t0 t1 := by
    rw [hb]
    unfold wc wd paramA
    generalize hU : uDotTp p0 p1 t0 t1 = U at hu ⊢
    rw [eq_div_iff hu]
    field_simp
    rw [hDe, ← hU]
    unfold D3 uDotTp
    ring
  have h1 : wc D p0 t1 t2 + wd D p0 p1 t1 t2 * paramA p0 p1 t0 t1 = 1 - paramB p0 p1 t0 t1 := by
    rw [hb]
    unfold wc wd paramA
    generalize hU : uDotTp p0 p1 t0 t1 = U at hu ⊢
    field_simp
    rw [hDe, ← hU]
    unfold D3 uDotTp
    ring
  rw [ha]
  constructor
  · rintro ⟨-, rfl, a1, a2⟩
    rw [h1] at a1
    rw [h2] at a2
    exact ⟨hu, rfl, a2, by linarith⟩
  · rintro ⟨-, rfl, a1, a2⟩
    refine ⟨hd0, rfl, ?_, ?_⟩
    · rw [h1]; linarith
    · rw [h2]; exact a1

private def cF (p0 : Pt K) (t : Tri K) : Fin 3 → K
  | 0 => wc t.det p0 t.a t.b
  | 1 => wc t.det p0 t.b t.c
  | 2 => wc t.det p0 t.c t.a
private def dF (p0 p1 : Pt K) (t : Tri K) : Fin 3 → K
  | 0 => wd t.det p0 p1 t.a t.b
  | 1 => wd t.det p0 p1 t.b t.c
  | 2 => wd t.det p0 p1 t.c t.a
private def side (t : Tri K) : Fin 3 → Pt K × Pt K
  | 0 => (t.a, t.b)
  | 1 => (t.b, t.c)
  | 2 => (t.c, t.a)

private theorem root_iff (p0 p1 : Pt K) (t : Tri K) (ht : t.det ≠ 0) (i : Fin 3) (s : K) :
    Root (cF p0 t) (dF p0 p1 t) i s ↔ uDotTp p0 p1 (side t i).1 (side t i).2 ≠ 0 ∧
      s = paramA p0 p1 (side t i).1 (side t i).2 ∧ 0 ≤ paramB p0 p1 (side t i).1 (side t i).2 ∧
      paramB p0 p1 (side t i).1 (side t i).2 ≤ 1 := by
  have D0 : t.det = D3 t.a t.b t.c := rfl
  have D1 : t.det = D3 t.b t.c t.a := by unfold Tri.det D3; ring
  have D2 : t.det = D3 t.c t.a t.b := by unfold Tri.det D3; ring
  fin_cases i
  · rw [show (side t ⟨0, by omega⟩) = (t.a, t.b) from rfl, ← side_iff p0 p1 t.a t.b t.c t.det s ht D0]
    unfold Root
    refine and_congr Iff.rfl (and_congr Iff.rfl ?_)
    constructor
    · intro h; exact ⟨h 1 (by decide), h 2 (by decide)⟩
    · rintro ⟨h1, h2⟩ j hj
      fin_cases j
      · exact absurd rfl hj
      · exact h1
      · exact h2
  · rw [show (side t ⟨1, by omega⟩) = (t.b, t.c) from rfl, ← side_iff p0 p1 t.b t.c t.a t.det s ht D1]
    unfold Root
    refine and_congr Iff.rfl (and_congr Iff.rfl ?_)
    constructor
    · intro h; exact ⟨h 2 (by decide), h 0 (by decide)⟩
    · rintro ⟨h1, h2⟩ j hj
      fin_cases j
      · exact h2
      · exact absurd rfl hj
      · exact h1
  · rw [show (side t ⟨2, by omega⟩) = (t.c, t.a) from rfl, ← side_iff p0 p1 t.c t.a t.b t.det s ht D2]
    unfold Root
    refine and_congr Iff.rfl (and_congr Iff.rfl ?_)
    constructor
    · intro h; exact ⟨h 0 (by decide), h 1 (by decide)⟩
    · rintro ⟨h1, h2⟩ j hj
      fin_cases j
      · exact h1
      · exact h2
      · exact absurd rfl hj

private theorem meets_iff (p0 p1 : Pt K) (t : Tri K) (ht : t.det ≠ 0) :
    Meets p0 p1 t ↔ ∃ s, 0 ≤ s ∧ s ≤ 1 ∧ ∀ i, 0 ≤ cF p0 t i + dF p0 p1 t i * s := by
  have hdet := ht
  unfold Tri.det at hdet
  constructor
  · rintro ⟨p, ⟨s, h0, h1, hx, hy⟩, ⟨u, v, w, hu, hv, hw, hsum, hpx, hpy⟩⟩
    refine ⟨s, h0, h1, ?_⟩
    have ex : p0.x + s * (p1.x - p0.x) = u * t.a.x + v * t.b.x + w * t.c.x := by rw [← hpx, hx]; ring
    have ey : p0.y + s * (p1.y - p0.y) = u * t.a.y + v * t.b.y + w * t.c.y := by rw [← hpy, hy]; ring
    obtain rfl : u = 1 - v - w := by linarith
    have e0 : cF p0 t 0 + dF p0 p1 t 0 * s = w := by
      simp only [cF, dF, wc, wd]
      rw [div_mul_eq_mul_div, ← add_div, div_eq_iff ht]
      unfold Tri.det
      linear_combination (t.b.x - t.a.x) * ey - (t.b.y - t.a.y) * ex
    have e1 : cF p0 t 1 + dF p0 p1 t 1 * s = 1 - v - w := by
      simp only [cF, dF, wc, wd]
      rw [div_mul_eq_mul_div, ← add_div, div_eq_iff ht]
      unfold Tri.det
      linear_combination (t.c.x - t.b.x) * ey - (t.c.y - t.b.y) * ex
    have e2 : cF p0 t 2 + dF p0 p1 t 2 * s = v := by
      simp only [cF, dF, wc, wd]
      rw [div_mul_eq_mul_div, ← add_div, div_eq_iff ht]
      unfold Tri.det
      linear_combination (t.a.x - t.c.x) * ey - (t.a.y - t.c.y) * ex
    intro i
    fin_cases i
    · exact e0 ▸ hw
    · exact e1 ▸ hu
    · exact e2 ▸ hv
  · rintro ⟨s, h0, h1, h⟩
    refine ⟨⟨(1 - s) * p0.x + s * p1.x, (1 - s) * p0.y + s * p1.y⟩, ⟨s, h0, h1, rfl, rfl⟩, cF p0 t 1 + dF p0 p1 t 1 * s,
      cF p0 t 2 + dF p0 p1 t 2 * s, cF p0 t 0 + dF p0 p1 t 0 * s, h 1, h 2, h 0, ?_, ?_, ?_⟩
    · simp only [cF, dF, wc, wd]
      field_simp
      unfold Tri.det
      ring
    · simp only [cF, dF, wc, wd]
      field_simp
      unfold Tri.det
      ring
    · simp only [cF, dF, wc, wd]
      field_simp
      unfold Tri.det
      ring

/-- C59: a triangle of nonzero area is reported for the line from `p0` to `p1` exactly if the segment and the closed triangle have a
point in common: crossing a side, touching a corner, running along a side, or inside altogether. -/
theorem C59_line_meets (p0 p1 : Pt K) (t : Tri K) (ht : t.det ≠ 0) (hp : p0 ≠ p1) :
    triLine p0 p1 t = true ↔ Meets p0 p1 t := by
  have hsum : ∑ i, dF p0 p1 t i = 0 := by
    rw [Fin.sum_univ_three]
    simp only [dF, wd]
    rw [← add_div, ← add_div, div_eq_zero_iff]
    left; ring
  have hne : ∃ i, dF p0 p1 t i ≠ 0 := by
    by_contra hc
    push Not at hc
    have h0 := hc 0
    have h1 := hc 1
    simp only [dF, wd, div_eq_zero_iff, ht, or_false] at h0 h1
    apply hp
    have hx : (p1.x - p0.x) * t.det = 0 := by
      unfold Tri.det
      linear_combination (t.c.x - t.b.x) * h0 - (t.b.x - t.a.x) * h1
    have hy : (p1.y - p0.y) * t.det = 0 := by
      unfold Tri.det
      linear_combination (t.c.y - t.b.y) * h0 - (t.b.y - t.a.y) * h1
    rw [mul_eq_zero, or_iff_left ht, sub_eq_zero] at hx hy
    obtain ⟨x0, y0⟩ := p0
    obtain ⟨x1, y1⟩ := p1
    simp only at hx hy
    rw [hx, hy]
  rw [meets_iff p0 p1 t ht, interval_test _ _ hsum hne]
  unfold triLine
  rw [lineLoop_iff]
  have ex : ∀ P : Pt K × Pt K → Prop, (∃ e ∈ t.sides, P e) ↔ ∃ i, P (side t i) := by
    intro P
    constructor
    · rintro ⟨e, he, h⟩
      simp only [Tri.sides, List.mem_cons, List.not_mem_nil, or_false] at he
      rcases he with rfl | rfl | rfl
      · exact ⟨0, h⟩
      · exact ⟨1, h⟩
      · exact ⟨2, h⟩
    · rintro ⟨i, h⟩
      refine ⟨side t i, ?_, h⟩
      fin_cases i <;> simp [Tri.sides, side]
  rw [ex, ex, ex]
  have h10 : ¬ (1 ≤ 0) := by omega
  simp only [h10, false_or]
  refine or_congr ?_ (and_congr ?_ ?_)
  · refine exists_congr fun i => ?_
    simp only [root_iff p0 p1 t ht]
    constructor
    · rintro ⟨h1, h2, h3⟩; exact ⟨_, ⟨h1, rfl, h3⟩, h2⟩
    · rintro ⟨_, ⟨h1, rfl, h3⟩, h2⟩; exact ⟨h1, h2, h3⟩
  · refine exists_congr fun i => ?_
    simp only [root_iff p0 p1 t ht]
    constructor
    · rintro ⟨h1, h2, h3⟩; exact ⟨_, ⟨h1, rfl, h3⟩, h2⟩
    · rintro ⟨_, ⟨h1, rfl, h3⟩, h2⟩; exact ⟨h1, h2, h3⟩
  · refine exists_congr fun i => ?_
    simp only [root_iff p0 p1 t ht]
    constructor
    · rintro ⟨h1, h2, h3⟩; exact ⟨_, ⟨h1, rfl, h3⟩, h2⟩
    · rintro ⟨_, ⟨h1, rfl, h3⟩, h2⟩; exact ⟨h1, h2, h3⟩

/-- C59: `line_intersect` lists, in increasing order and without repetition, exactly the triangles the segment meets, and
`not_line_intersect` lists the others (in decreasing order). -/
theorem C59_line_indices (ts : List (Tri K)) (p0 p1 : Pt K) (hp : p0 ≠ p1) (ht : ∀ t ∈ ts, t.det ≠ 0) :
    ∃ i o, lineIntersect ts [p0, p1] = some i ∧ notLineIntersect ts [p0, p1] = some o ∧
      i.Pairwise (· < ·) ∧ o.Pairwise (· > ·) ∧
      (∀ k, k ∈ i ↔ ∃ t, ts[k]? = some t ∧ Meets p0 p1 t) ∧
      (∀ k, k ∈ o ↔ ∃ t, ts[k]? = some t ∧ ¬ Meets p0 p1 t) := by
  obtain ⟨h1, h2⟩ := fill_lists (testAt (triLine p0 p1) ts) ts.length
  refine ⟨_, _, rfl, rfl, ?_, ?_, ?_, ?_⟩
  · rw [h1]; exact (List.pairwise_lt_range).filter _
  · rw [h2, List.pairwise_reverse]; exact (List.pairwise_lt_range).filter _
  · intro k
    rw [h1, List.mem_filter, List.mem_range]
    unfold testAt
    constructor
    · rintro ⟨hk, h⟩
      rw [List.getElem?_eq_getElem hk] at h ⊢
      exact ⟨_, rfl, (C59_line_meets p0 p1 _ (ht _ (List.getElem_mem hk)) hp).1 h⟩
    · rintro ⟨t, hk, h⟩
      rw [hk]
      exact ⟨(List.getElem?_eq_some_iff.1 hk).1, (C59_line_meets p0 p1 _ (ht _ (List.mem_of_getElem? hk)) hp).2 h⟩
  · intro k
    rw [h2, List.mem_reverse, List.mem_filter, List.mem_range]
    unfold testAt
    constructor
    · rintro ⟨hk, h⟩
      rw [List.getElem?_eq_getElem hk] at h ⊢
      refine ⟨_, rfl, fun hm => ?_⟩
      rw [← C59_line_meets p0 p1 _ (ht _ (List.getElem_mem hk)) hp] at hm
      simp [hm] at h
    · rintro ⟨t, hk, h⟩
      rw [hk]
      refine ⟨(List.getElem?_eq_some_iff.1 hk).1, ?_⟩
      rw [← C59_line_meets p0 p1 _ (ht _ (List.mem_of_getElem? hk)) hp] at h
      simpa using h

/-- C59: the direction of the line and the corner a triangle is listed from do not matter. -/
theorem C59_line_symmetric (p0 p1 : Pt K) (a b c : Pt K) (ht : (⟨a, b, c⟩ : Tri K).det ≠ 0) :
    triLine p1 p0 ⟨a, b, c⟩ = triLine p0 p1 ⟨a, b, c⟩ ∧ triLine p0 p1 ⟨b, c, a⟩ = triLine p0 p1 ⟨a, b, c⟩ ∧
    triLine p0 p1 ⟨a, c, b⟩ = triLine p0 p1 ⟨a, b, c⟩ := by
  by_cases hp : p0 = p1
  · subst hp
    have : ∀ t : Tri K, triLine p0 p0 t = false := by
      intro t
      simp [triLine, Tri.sides, lineLoop, uDotTp]
    simp [this]
  have d1 : (⟨b, c, a⟩ : Tri K).det ≠ 0 := by
    have : (⟨b, c, a⟩ : Tri K).det = (⟨a, b, c⟩ : Tri K).det := by unfold Tri.det; ring
    rwa [this]
  have d2 : (⟨a, c, b⟩ : Tri K).det ≠ 0 := by
    have : (⟨a, c, b⟩ : Tri K).det = -(⟨a, b, c⟩ : Tri K).det := by unfold Tri.det; ring
    rw [this]; exact neg_ne_zero.2 ht
  refine ⟨?_, ?_, ?_⟩
  · rw [Bool.eq_iff_iff, C59_line_meets _ _ _ ht hp, C59_line_meets _ _ _ ht (Ne.symm hp)]
    constructor <;>
    · rintro ⟨p, ⟨s, h0, h1, hx, hy⟩, hh⟩
      exact ⟨p, ⟨1 - s, by linarith, by linarith, by rw [hx]; ring, by rw [hy]; ring⟩, hh⟩
  · rw [Bool.eq_iff_iff, C59_line_meets _ _ _ ht hp, C59_line_meets _ _ _ d1 hp]
    constructor
    · rintro ⟨p, hs, u, v, w, hu, hv, hw, hsum, hx, hy⟩
      exact ⟨p, hs, w, u, v, hw, hu, hv, by linarith, by simp only at hx ⊢; rw [hx]; ring, by simp only at hy ⊢; rw [hy]; ring⟩
    · rintro ⟨p, hs, u, v, w, hu, hv, hw, hsum, hx, hy⟩
      exact ⟨p, hs, v, w, u, hv, hw, hu, by linarith, by simp only at hx ⊢; rw [hx]; ring, by simp only at hy ⊢; rw [hy]; ring⟩
  · rw [Bool.eq_iff_iff, C59_line_meets _ _ _ ht hp, C59_line_meets _ _ _ d2 hp]
    constructor <;>
    · rintro ⟨p, hs, u, v, w, hu, hv, hw, hsum, hx, hy⟩
      exact ⟨p, hs, u, w, v, hu, hw, hv, by linarith, by simp only at hx ⊢; rw [hx]; ring, by simp only at hy ⊢; rw [hy]; ring⟩

/-- C59, disagreement: a line of coinciding points meets nothing, even inside a triangle. -/
theorem C59_point_line (p : Pt K) (t : Tri K) : triLine p p t = false := by
  simp [triLine, Tri.sides, lineLoop, uDotTp]

/-- C59, disagreement: only the first segment of a polyline is looked at. The triangle around `(5, 5)` is met by the second segment of
the polyline `(0, 0), (5, 0), (5, 5)` but is not reported. -/
theorem C59_polyline_tail_ignored (ts : List (Tri K)) (p0 p1 : Pt K) (rest : List (Pt K)) :
    lineIntersect ts (p0 :: p1 :: rest) = lineIntersect ts [p0, p1] ∧
    (∃ (t : Tri ℚ) (q0 q1 q2 : Pt ℚ), t.det ≠ 0 ∧ Meets q1 q2 t ∧ lineIntersect [t] [q0, q1, q2] = some []) := by
  refine ⟨rfl, ⟨⟨4, 4⟩, ⟨6, 4⟩, ⟨5, 6⟩⟩, ⟨0, 0⟩, ⟨5, 0⟩, ⟨5, 5⟩, by decide +kernel, ?_, by decide +kernel⟩
  refine ⟨⟨5, 5⟩, ⟨1, by norm_num, by norm_num, by norm_num, by norm_num⟩, 1 / 4, 1 / 4, 1 / 2, ?_⟩
  norm_num

/-! ### Concrete cases -/

/-- A segment inside, one along a side, one touching a corner and one that passes by. -/
example : triLine (⟨1, 1⟩ : Pt ℚ) ⟨2, 1⟩ ⟨⟨0, 0⟩, ⟨6, 0⟩, ⟨0, 6⟩⟩ = true ∧
    triLine (⟨1, 0⟩ : Pt ℚ) ⟨2, 0⟩ ⟨⟨0, 0⟩, ⟨6, 0⟩, ⟨0, 6⟩⟩ = true ∧
    triLine (⟨7, -1⟩ : Pt ℚ) ⟨5, 1⟩ ⟨⟨0, 0⟩, ⟨6, 0⟩, ⟨0, 6⟩⟩ = true ∧
    triLine (⟨7, -1⟩ : Pt ℚ) ⟨7, 9⟩ ⟨⟨0, 0⟩, ⟨6, 0⟩, ⟨0, 6⟩⟩ = false ∧
    (⟨⟨0, 0⟩, ⟨6, 0⟩, ⟨0, 6⟩⟩ : Tri ℚ).det ≠ 0 := by decide +kernel

example : lineIntersect [⟨⟨0, 0⟩, ⟨6, 0⟩, ⟨0, 6⟩⟩, ⟨⟨6, 0⟩, ⟨6, 6⟩, ⟨0, 6⟩⟩, ⟨⟨6, 0⟩, ⟨12, 0⟩, ⟨6, 6⟩⟩]
    [(⟨-1, 3⟩ : Pt ℚ), ⟨5, 3⟩] = some [0, 1] := by decide +kernel

end Verif.Region
