import Verif.Polygon.PropsTwo
import Mathlib.Algebra.BigOperators.Fin
import Mathlib.Algebra.BigOperators.Field

/-! # C19: polygon area -/

namespace Verif.Polygon

set_option linter.unusedSectionVars false

variable {K : Type*} [Field K] [LinearOrder K] [IsStrictOrderedRing K]

/-- Sum of `f` over the sides. -/
def sumE (f : Pt K → Pt K → K) (l : List (Pt K)) : K := ((edges l).map (fun e => f e.1 e.2)).sum

theorem sum_zip (f g : Pt K × Pt K → K) (l : List (Pt K × Pt K)) :
    (l.map (fun e => f e + g e)).sum = (l.map f).sum + (l.map g).sum := by
  induction l with
  | nil => simp
  | cons a l ih => simp only [List.map_cons, List.sum_cons, ih]; ring

theorem sumE_mul (c : K) (f : Pt K → Pt K → K) (l : List (Pt K)) : sumE (fun a b => c * f a b) l = c * sumE f l := by
  unfold sumE
  induction edges l with
  | nil => simp
  | cons a l ih => simp only [List.map_cons, List.sum_cons, ih]; ring

/-- Telescoping around the polygon. -/
theorem sumE_ends (g : Pt K → K) (l : List (Pt K)) : sumE (fun a b => g b - g a) l = 0 := by
  unfold sumE
  have h : (edges l).map (fun e => g e.2 - g e.1) = (edges l).map (fun e => g e.2 + (-1) * g e.1) := by
    apply List.map_congr_left; intros; ring
  rw [h, sum_zip (fun e => g e.2) (fun e => (-1) * g e.1)]
  have e1 : (edges l).map (fun e => g e.2) = (l.rotate 1).map g := by
    rw [show (fun e : Pt K × Pt K => g e.2) = g ∘ Prod.snd from rfl, ← List.map_map, edges_snd]
  have e2 : (edges l).map (fun e => (-1) * g e.1) = l.map (fun v => (-1) * g v) := by
    rw [show (fun e : Pt K × Pt K => (-1) * g e.1) = (fun v => (-1) * g v) ∘ Prod.fst from rfl, ← List.map_map, edges_fst]
  rw [e1, e2, ((List.rotate_perm l 1).map g).sum_eq, List.sum_map_mul_left]
  ring

theorem edges_map (f : Pt K → Pt K) (l : List (Pt K)) : edges (l.map f) = (edges l).map (fun e => (f e.1, f e.2)) := by
  unfold edges
  rw [← List.map_rotate, List.zip_map]
  rfl

theorem sumE_map (f : Pt K → Pt K → K) (g : Pt K → Pt K) (l : List (Pt K)) :
    sumE f (l.map g) = sumE (fun a b => f (g a) (g b)) l := by
  unfold sumE
  rw [edges_map, List.map_map]
  rfl

theorem sumE_congr {f g : Pt K → Pt K → K} (l : List (Pt K)) (h : ∀ a b, f a b = g a b) : sumE f l = sumE g l := by
  unfold sumE
  congr 1
  exact List.map_congr_left (fun e _ => h e.1 e.2)

theorem sumE_add (f g : Pt K → Pt K → K) (l : List (Pt K)) : sumE (fun a b => f a b + g a b) l = sumE f l + sumE g l :=
  sum_zip _ _ _

theorem foldl_sum (f : Pt K × Pt K → K) (l : List (Pt K × Pt K)) (s : K) :
    l.foldl (fun s e => s + f e) s = s + (l.map f).sum := by
  induction l generalizing s with
  | nil => simp
  | cons a l ih => rw [List.foldl_cons, ih, List.map_cons, List.sum_cons]; ring

/-- The sum of the signed triangles does not depend on the apex. -/
theorem sumE_apex (q r : Pt K) (l : List (Pt K)) : sumE (twoTri q) l = sumE (twoTri r) l := by
  have h : ∀ a b, twoTri q a b = twoTri r a b + (((r.x - q.x) * b.y - (r.y - q.y) * b.x) - ((r.x - q.x) * a.y - (r.y - q.y) * a.x)) := by
    intro a b; unfold twoTri; ring
  rw [sumE_congr l h, sumE_add, sumE_ends (fun v => (r.x - q.x) * v.y - (r.y - q.y) * v.x)]
  ring

theorem area_sumE (q : Pt K) (l : List (Pt K)) : polygonArea l = |sumE (twoTri q) l / 2| := by
  unfold polygonArea
  simp only
  rw [foldl_sum (fun e => e.1.x * e.2.y - e.2.x * e.1.y), zero_add,
    sumE_apex q ⟨minOf Pt.x l, minOf Pt.y l⟩ l]
  generalize minOf Pt.x l = mx
  generalize minOf Pt.y l = my
  have := sumE_map (fun a b => a.x * b.y - b.x * a.y) (fun v => (⟨v.x - mx, v.y - my⟩ : Pt K)) l
  unfold sumE at this
  rw [this]
  congr 3
  apply List.map_congr_left
  intro e _
  unfold twoTri
  ring

theorem seenFrom_sumE (q : Pt K) (l : List (Pt K)) : seenFrom q l = sumE (twoTri q) l / 2 := by
  unfold seenFrom sumE
  congr 1
  have e : edges l = (List.finRange l.length).map (fun i : Fin l.length => (vert l i i.pos, vert l (i.val + 1) i.pos)) := by
    apply List.ext_getElem
    · simp [edges_length]
    · intro i h1 h2
      have hi : i < l.length := by rwa [edges_length] at h1
      rw [edges_get l i hi]
      simp [vert, Nat.mod_eq_of_lt hi]
  rw [e, List.map_map, Fin.sum_univ_def]
  rfl

/-- **C19.** The area is the absolute value of the signed area seen from any point whatsoever. -/
theorem C19_seen_from_anywhere (poly : List (Pt K)) (q : Pt K) : polygonArea poly = |seenFrom q poly| := by
  rw [area_sumE q, seenFrom_sumE]

/-- **C19.** Never negative, and the formula "base times height over two" for triangles: the area of `(x0, y0), (x1, y0), c`
is `|x1 - x0| |c.y - y0| / 2`. -/
theorem C19_triangle (poly : List (Pt K)) (x0 x1 y0 : K) (c : Pt K) :
    0 ≤ polygonArea poly ∧ polygonArea [⟨x0, y0⟩, ⟨x1, y0⟩, c] = |x1 - x0| * |c.y - y0| / 2 := by
  refine ⟨by unfold polygonArea; exact abs_nonneg _, ?_⟩
  rw [area_sumE ⟨x0, y0⟩, ← abs_mul]
  have : sumE (twoTri ⟨x0, y0⟩) [⟨x0, y0⟩, ⟨x1, y0⟩, c] = (x1 - x0) * (c.y - y0) := by
    simp only [sumE, edges, List.rotate_cons_succ, List.rotate_zero, List.cons_append, List.nil_append, List.zip_cons_cons,
      List.zip_nil_left, List.map_cons, List.map_nil, List.sum_cons, List.sum_nil, twoTri]
    ring
  rw [this, abs_div, abs_two]

/-- **C19.** Unchanged by translation; start vertex, direction and a repeated first vertex do not matter. -/
theorem C19_listing (poly : List (Pt K)) (d : Pt K) :
    polygonArea (poly.map (shift d)) = polygonArea poly ∧ (∀ n, polygonArea (poly.rotate n) = polygonArea poly) ∧
      polygonArea poly.reverse = polygonArea poly ∧
      (∀ v vs, poly = v :: vs → polygonArea (v :: vs ++ [v]) = polygonArea poly) := by
  refine ⟨?_, fun n => ?_, ?_, fun v vs h => ?_⟩
  · rw [area_sumE d, area_sumE ⟨0, 0⟩, sumE_map]
    congr 2
    apply sumE_congr
    intro a b
    simp [twoTri, shift]
  · rw [area_sumE ⟨0, 0⟩, area_sumE ⟨0, 0⟩ poly]
    unfold sumE
    rw [((edges_rotate poly n).map _).sum_eq]
  · rw [area_sumE ⟨0, 0⟩, area_sumE ⟨0, 0⟩ poly]
    have : sumE (twoTri ⟨0, 0⟩) poly.reverse = (-1) * sumE (twoTri ⟨0, 0⟩) poly := by
      rw [← sumE_mul]
      unfold sumE
      rw [((edges_reverse poly).map _).sum_eq, List.map_map]
      congr 1
      apply List.map_congr_left
      intro e _
      simp only [Function.comp, Prod.fst_swap, Prod.snd_swap, twoTri]
      ring
    rw [this, neg_one_mul, neg_div, abs_neg]
  · subst h
    have he : edges (v :: vs ++ [v]) = edges (v :: vs) ++ [(v, v)] := by
      rw [List.cons_append, edges_cons, edges_cons, ← List.cons_append, steps_snoc]
    rw [area_sumE v, area_sumE v (v :: vs)]
    unfold sumE
    rw [he]
    simp [twoTri]

/-- **C19.** A linear map multiplies the area by the absolute value of its determinant (so rotations and reflections keep it and
a change of scale by `s` multiplies it by `s²`). -/
theorem C19_linear (poly : List (Pt K)) (a b c d : K) :
    polygonArea (poly.map (lin a b c d)) = |a * d - b * c| * polygonArea poly := by
  rw [area_sumE ⟨0, 0⟩, area_sumE ⟨0, 0⟩ poly, sumE_map, ← abs_mul]
  have : sumE (fun u v => twoTri ⟨0, 0⟩ (lin a b c d u) (lin a b c d v)) poly =
      (a * d - b * c) * sumE (twoTri ⟨0, 0⟩) poly := by
    rw [← sumE_mul]
    apply sumE_congr
    intro u v
    simp only [twoTri, lin]
    ring
  rw [this, mul_div_assoc]

/-- **C19.** Star-shaped polygons (in particular convex ones): if all sides are seen counterclockwise from some point `q`, the
area is the sum of the areas of the triangles spanned by `q` and the sides. -/
theorem C19_star_shaped (poly : List (Pt K)) (q : Pt K) (h : ∀ a b, Side poly a b → 0 ≤ twoTri q a b) :
    polygonArea poly =
      ∑ i : Fin poly.length, polygonArea [q, vert poly i i.pos, vert poly (i.val + 1) i.pos] := by
  have tri : ∀ a b, 0 ≤ twoTri q a b → polygonArea [q, a, b] = twoTri q a b / 2 := by
    intro a b hab
    rw [area_sumE q]
    have : sumE (twoTri q) [q, a, b] = twoTri q a b := by
      simp only [sumE, edges, List.rotate_cons_succ, List.rotate_zero, List.cons_append, List.nil_append, List.zip_cons_cons,
        List.zip_nil_left, List.map_cons, List.map_nil, List.sum_cons, List.sum_nil, twoTri]
      ring
    rw [this, abs_of_nonneg (by linarith)]
  have side : ∀ i : Fin poly.length, 0 ≤ twoTri q (vert poly i i.pos) (vert poly (i.val + 1) i.pos) := by
    intro i
    apply h
    exact ⟨i, i.isLt, by simp [vert, Nat.mod_eq_of_lt i.isLt], rfl⟩
  rw [C19_seen_from_anywhere poly q, abs_of_nonneg]
  · unfold seenFrom
    rw [Finset.sum_div]
    exact Finset.sum_congr rfl (fun i _ => (tri _ _ (side i)).symm)
  · unfold seenFrom
    exact div_nonneg (Finset.sum_nonneg (fun i _ => side i)) (by norm_num)

theorem steps_append (l m : List (Pt K)) (v : Pt K) : steps (l ++ [v]) ++ steps (v :: m) = steps (l ++ v :: m) := by
  induction l with
  | nil => rfl
  | cons a l ih =>
    cases l with
    | nil => rfl
    | cons b l =>
      have h : ∀ r : List (Pt K), steps (a :: b :: r) = (a, b) :: steps (b :: r) := fun _ => rfl
      simp only [List.cons_append, h] at ih ⊢
      rw [ih]

/-- **C19.** Cutting a polygon along the chord from `u` to `v`: the signed areas of the two pieces add up, so the areas do when
the pieces have the same orientation. -/
theorem C19_cut (u v q : Pt K) (l m : List (Pt K)) :
    seenFrom q (u :: l ++ v :: m) = seenFrom q (u :: l ++ [v]) + seenFrom q (u :: v :: m) ∧
      (0 ≤ seenFrom q (u :: l ++ [v]) * seenFrom q (u :: v :: m) →
        polygonArea (u :: l ++ v :: m) = polygonArea (u :: l ++ [v]) + polygonArea (u :: v :: m)) := by
  have key : seenFrom q (u :: l ++ v :: m) = seenFrom q (u :: l ++ [v]) + seenFrom q (u :: v :: m) := by
    simp only [seenFrom_sumE]
    rw [← add_div]
    congr 1
    unfold sumE
    have h1 : edges (u :: l ++ v :: m) = steps (u :: l ++ [v]) ++ steps (v :: m ++ [u]) := by
      have h := steps_append (u :: l) (m ++ [u]) v
      rw [List.cons_append, edges_cons, List.cons_append, List.append_assoc, List.cons_append]
      rw [List.cons_append] at h ⊢
      exact h.symm
    have h2 : edges (u :: l ++ [v]) = steps (u :: l ++ [v]) ++ [(v, u)] := by
      rw [List.cons_append, edges_cons, ← List.cons_append, steps_snoc]
    have h3 : edges (u :: v :: m) = (u, v) :: steps (v :: m ++ [u]) := by
      rw [edges_cons]; rfl
    rw [h1, h2, h3]
    simp only [List.map_append, List.sum_append, List.map_cons, List.map_nil, List.sum_cons, List.sum_nil, twoTri]
    ring
  refine ⟨key, fun h => ?_⟩
  rw [C19_seen_from_anywhere _ q, C19_seen_from_anywhere _ q, C19_seen_from_anywhere _ q, key]
  exact (abs_add_eq_add_abs_iff _ _).mpr (mul_nonneg_iff.mp h)

/-- A square with side 2, seen from its centre. -/
example : ∀ a b, Side (K := ℚ) [⟨0, 0⟩, ⟨2, 0⟩, ⟨2, 2⟩, ⟨0, 2⟩] a b → 0 ≤ twoTri ⟨1, 1⟩ a b := by
  rintro a b ⟨i, hi, rfl, rfl⟩
  have : i = 0 ∨ i = 1 ∨ i = 2 ∨ i = 3 := by simp at hi; omega
  rcases this with rfl | rfl | rfl | rfl <;> simp [twoTri] <;> norm_num

example : polygonArea (K := ℚ) [⟨0, 0⟩, ⟨2, 0⟩, ⟨2, 2⟩, ⟨0, 2⟩] = 4 := by decide +kernel

/-- The two halves of the square have the same orientation. -/
example : 0 ≤ seenFrom (K := ℚ) ⟨0, 0⟩ ([⟨0, 0⟩, ⟨2, 0⟩] ++ [⟨2, 2⟩]) * seenFrom ⟨0, 0⟩ [⟨0, 0⟩, ⟨2, 2⟩, ⟨0, 2⟩] := by
  decide +kernel

end Verif.Polygon
