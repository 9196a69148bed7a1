import Verif.Polygon.Props
import Mathlib.Analysis.Real.Sqrt

/-! # C18: the inside test is geometrically right -/

namespace Verif.Polygon

set_option linter.unusedSectionVars false

variable {K : Type*} [Field K] [LinearOrder K] [IsStrictOrderedRing K]

/-- `p` keeps a distance of more than `2e-15` from every side. -/
def Clear (poly : List (Pt K)) (p : Pt K) : Prop := ∀ a b, Side poly a b → ¬ Near margin p a b

/-- **C18.** Any polygon: a point on a side is classified by the `closed` flag. -/
theorem C18_boundary (sq : K → K) (hs : IsSqrt sq) (closed : Bool) (poly : List (Pt K)) (p a b : Pt K) (h : Side poly a b)
    (hp : OnSeg p a b) : isInsidePolygon sq closed p poly = some closed := by
  rw [isInside_eq, insideFlag_on hs h hp]

/-- **C18.** Any polygon: a point outside the bounding box is outside. -/
theorem C18_outside_box (sq : K → K) (closed : Bool) (poly : List (Pt K)) (p : Pt K)
    (h : (∀ v ∈ poly, v.x < p.x) ∨ (∀ v ∈ poly, p.x < v.x) ∨ (∀ v ∈ poly, v.y < p.y) ∨ (∀ v ∈ poly, p.y < v.y)) :
    isInsidePolygon sq closed p poly = some false := by
  rw [isInside_eq]
  match poly with
  | [] => rfl
  | v :: vs =>
    unfold insideFlag
    simp only
    have hv : v ∈ v :: vs := by simp
    rw [if_pos]
    rcases h with h | h | h | h
    · left
      exact (box_within (v :: vs) ⟨v.x, v.x, v.y, v.y⟩ (fun _ => True) (· < p.x) (fun _ => True) (fun _ => True)
        ⟨trivial, h v hv, trivial, trivial⟩ (fun w hw => ⟨trivial, h w hw, trivial, trivial⟩)).2.1
    · right; left
      exact (box_within (v :: vs) ⟨v.x, v.x, v.y, v.y⟩ (p.x < ·) (fun _ => True) (fun _ => True) (fun _ => True)
        ⟨h v hv, trivial, trivial, trivial⟩ (fun w hw => ⟨h w hw, trivial, trivial, trivial⟩)).1
    · right; right; left
      exact (box_within (v :: vs) ⟨v.x, v.x, v.y, v.y⟩ (fun _ => True) (fun _ => True) (fun _ => True) (· < p.y)
        ⟨trivial, trivial, trivial, h v hv⟩ (fun w hw => ⟨trivial, trivial, trivial, h w hw⟩)).2.2.2
    · right; right; right
      exact (box_within (v :: vs) ⟨v.x, v.x, v.y, v.y⟩ (fun _ => True) (fun _ => True) (p.y < ·) (fun _ => True)
        ⟨trivial, trivial, h v hv, trivial⟩ (fun w hw => ⟨trivial, trivial, h w hw, trivial⟩)).2.2.1

theorem clear_off {sq : K → K} (hs : IsSqrt sq) {poly : List (Pt K)} {p : Pt K} (h : Clear poly p) (a b : Pt K)
    (hab : Side poly a b) : pointOnLine sq 0 0 p a b = false := by
  rw [← Bool.not_eq_true]
  exact fun hn => h a b hab (near_of_pointOnLine hs hn)

theorem clear_eq {sq : K → K} (hs : IsSqrt sq) (closed : Bool) {poly : List (Pt K)} {p : Pt K} (h : Clear poly p) :
    isInsidePolygon sq closed p poly = some (xors ((edges poly).map (fun e => crosses p e.1 e.2))) := by
  rw [isInside_eq, insideFlag_off (clear_off hs h)]

open Classical in
theorem fan_xors (poly : List (Pt K)) (p q : Pt K) (h : ∀ a b, Side poly a b → ¬ OnSeg p a b)
    (hq : ∀ v ∈ poly, ¬ OnSeg p q v) :
    xors ((edges poly).map (fun e => crosses p e.1 e.2)) =
      xors ((edges poly).map (fun e => decide (InTri p q e.1 e.2))) := by
  have e1 : (edges poly).map (fun e => decide (InTri p q e.1 e.2)) =
      (edges poly).map (fun e => (crosses p q e.1 ^^ crosses p q e.2) ^^ crosses p e.1 e.2) := by
    apply List.map_congr_left
    intro e he
    obtain ⟨m1, m2⟩ := mem_edges he
    have := tri_parity (hq _ m1) (h e.1 e.2 ((side_iff poly e.1 e.2).mpr he)) (fun hn => hq _ m2 hn.symm)
    rw [crosses_comm p e.2 q] at this
    have e2 : (crosses p q e.1 ^^ crosses p e.1 e.2 ^^ crosses p q e.2) =
        ((crosses p q e.1 ^^ crosses p q e.2) ^^ crosses p e.1 e.2) := by
      generalize crosses p q e.1 = u
      generalize crosses p e.1 e.2 = v
      generalize crosses p q e.2 = w
      revert u v w; decide
    rw [e2] at this
    rw [Bool.eq_iff_iff, decide_eq_true_eq]
    exact this.symm
  rw [e1, xors_zip (fun e : Pt K × Pt K => crosses p q e.1 ^^ crosses p q e.2) (fun e => crosses p e.1 e.2),
    xors_ends (crosses p q) poly]
  simp

open Classical in
/-- **C18.** Any polygon, also a self-intersecting one: a point clear of the sides is inside exactly when an odd number of
the triangles spanned by the sides and an arbitrary apex `q` contain it, for every `q` not lined up with the point and a
vertex. The right hand side does not know about rays. -/
theorem C18_even_odd (sq : K → K) (hs : IsSqrt sq) (closed : Bool) (poly : List (Pt K)) (p q : Pt K) (h : Clear poly p)
    (hq : ∀ v ∈ poly, ¬ OnSeg p q v) :
    isInsidePolygon sq closed p poly = some true ↔
      Odd (Finset.univ.filter (fun i : Fin poly.length =>
        InTri p q poly[i] (poly[(i.val + 1) % poly.length]'(Nat.mod_lt _ (by have := i.isLt; omega))))).card := by
  rw [clear_eq hs closed h, fan_xors poly p q (fun a b hab hn => h a b hab (hn.near _)) hq, xors_count, Option.some.injEq,
    decide_eq_true_eq]
  have hc : (edges poly).countP (fun e => decide (InTri p q e.1 e.2)) =
      (Finset.univ.filter (fun i : Fin poly.length =>
        InTri p q poly[i] (poly[(i.val + 1) % poly.length]'(Nat.mod_lt _ (by have := i.isLt; omega))))).card := by
    have e : edges poly = (List.finRange poly.length).map
        (fun i => (poly[i], poly[(i.val + 1) % poly.length]'(Nat.mod_lt _ (by have := i.isLt; omega)))) := by
      apply List.ext_getElem
      · simp [edges_length]
      · intro i h1 h2
        rw [edges_get poly i (by rwa [edges_length] at h1)]
        simp
    rw [e, List.countP_map, List.countP_eq_length_filter, Finset.card_def, Finset.filter_val]
    rfl
  rw [hc]

/-- **C18.** Triangles: strictly inside means inside, everything else clear of the sides is outside; the orientation and the
`closed` flag do not matter. -/
theorem C18_triangle (sq : K → K) (hs : IsSqrt sq) (closed : Bool) (a b c p : Pt K) (h : Clear [a, b, c] p) :
    isInsidePolygon sq closed p [a, b, c] = some true ↔ InTri p a b c := by
  rw [clear_eq hs closed h, Option.some.injEq]
  have hn : ∀ u v, Side [a, b, c] u v → ¬ OnSeg p u v := fun u v huv hn => h u v huv (hn.near _)
  have := tri_parity (p := p) (hn a b ⟨0, by simp, rfl, rfl⟩) (hn b c ⟨1, by simp, rfl, rfl⟩) (hn c a ⟨2, by simp, rfl, by simp⟩)
  rw [← this]
  simp only [edges, List.rotate_cons_succ, List.rotate_zero, List.cons_append, List.nil_append, List.zip_cons_cons,
    List.zip_nil_left, List.map_cons, List.map_nil, xors, List.foldr_cons, List.foldr_nil, Bool.xor_false, Bool.xor_assoc]

/-- **C18.** Axis-aligned rectangles. -/
theorem C18_rectangle (sq : K → K) (hs : IsSqrt sq) (closed : Bool) (x0 x1 y0 y1 : K) (hx : x0 < x1) (hy : y0 < y1) (p : Pt K)
    (h : Clear [⟨x0, y0⟩, ⟨x1, y0⟩, ⟨x1, y1⟩, ⟨x0, y1⟩] p) :
    isInsidePolygon sq closed p [⟨x0, y0⟩, ⟨x1, y0⟩, ⟨x1, y1⟩, ⟨x0, y1⟩] = some true ↔
      x0 < p.x ∧ p.x < x1 ∧ y0 < p.y ∧ p.y < y1 := by
  rw [clear_eq hs closed h, Option.some.injEq]
  have hn : ∀ u v, Side [⟨x0, y0⟩, ⟨x1, y0⟩, ⟨x1, y1⟩, ⟨x0, y1⟩] u v → ¬ OnSeg p u v :=
    fun u v huv hn => h u v huv (hn.near _)
  have h1 := hn ⟨x0, y0⟩ ⟨x1, y0⟩ ⟨0, by simp, rfl, rfl⟩
  have h2 := hn ⟨x1, y0⟩ ⟨x1, y1⟩ ⟨1, by simp, rfl, rfl⟩
  have h3 := hn ⟨x1, y1⟩ ⟨x0, y1⟩ ⟨2, by simp, rfl, rfl⟩
  have h4 := hn ⟨x0, y1⟩ ⟨x0, y0⟩ ⟨3, by simp, rfl, by simp⟩
  simp only [edges, List.rotate_cons_succ, List.rotate_zero, List.cons_append, List.nil_append, List.zip_cons_cons,
    List.zip_nil_left, List.map_cons, List.map_nil, xors, List.foldr_cons, List.foldr_nil, Bool.xor_false]
  have c1 : crosses p ⟨x0, y0⟩ ⟨x1, y0⟩ = false := crosses_same (by simp)
  have c3 : crosses p ⟨x1, y1⟩ ⟨x0, y1⟩ = false := crosses_same (by simp)
  have hor : ∀ y, p.y = y → OnSeg p ⟨x0, y⟩ ⟨x1, y⟩ ∨ p.x < x0 ∨ x1 < p.x := by
    intro y hy'
    by_cases k1 : p.x < x0
    · exact Or.inr (Or.inl k1)
    by_cases k2 : x1 < p.x
    · exact Or.inr (Or.inr k2)
    push Not at k1 k2
    left
    have hd : 0 < x1 - x0 := by linarith
    refine ⟨(p.x - x0) / (x1 - x0), div_nonneg (by linarith) hd.le, (div_le_one hd).mpr (by linarith), ?_, ?_⟩
    · rw [div_mul_cancel₀ _ hd.ne']; ring
    · rw [hy']; ring
  have ver : ∀ x, p.x = x → y0 < p.y → p.y ≤ y1 → OnSeg p ⟨x, y0⟩ ⟨x, y1⟩ := by
    intro x hx' k1 k2
    have hd : 0 < y1 - y0 := by linarith
    refine ⟨(p.y - y0) / (y1 - y0), div_nonneg (by linarith) hd.le, (div_le_one hd).mpr (by linarith), ?_, ?_⟩
    · rw [hx']; ring
    · rw [div_mul_cancel₀ _ hd.ne']; ring
  rw [c1, c3]
  by_cases hb : y0 < p.y ∧ p.y ≤ y1
  · have cr : ∀ x, crosses p ⟨x, y0⟩ ⟨x, y1⟩ = decide (x < p.x) := by
      intro x
      rw [crosses_up hb.1 hb.2]
      unfold ori
      simp only [sub_self, zero_mul, zero_sub]
      congr 1
      rw [eq_iff_iff]
      have hd : 0 < y1 - y0 := by linarith
      constructor
      · intro hlt
        by_contra hge
        push Not at hge
        have := mul_nonneg hd.le (sub_nonneg.mpr hge)
        nlinarith
      · intro hlt
        have := mul_pos hd (sub_pos.mpr hlt)
        linarith
    rw [cr x1, crosses_comm, cr x0]
    have n0 : p.x ≠ x0 := fun e => h4 (ver x0 e hb.1 hb.2).symm
    have n1 : p.x ≠ x1 := fun e => h2 (ver x1 e hb.1 hb.2)
    by_cases k0 : x0 < p.x
    · by_cases k1 : x1 < p.x
      · rw [decide_eq_true k0, decide_eq_true k1]
        refine ⟨fun hh => by simp at hh, fun hh => ?_⟩
        linarith [hh.2.1]
      · rw [decide_eq_true k0, decide_eq_false k1]
        refine ⟨fun _ => ⟨k0, lt_of_le_of_ne (not_lt.mp k1) n1, hb.1, ?_⟩, fun _ => rfl⟩
        refine lt_of_le_of_ne hb.2 (fun e => ?_)
        rcases hor y1 e with k | k | k
        · exact h3 k.symm
        · linarith
        · exact k1 k
    · have k1 : ¬ x1 < p.x := fun k => k0 (by linarith)
      rw [decide_eq_false k0, decide_eq_false k1]
      exact ⟨fun hh => by simp at hh, fun hh => absurd hh.1 k0⟩
  · have c2 : crosses p ⟨x1, y0⟩ ⟨x1, y1⟩ = false := crosses_same (by
      constructor
      · intro k; by_contra k'; exact hb ⟨k, not_lt.mp k'⟩
      · intro k; exact lt_trans hy k)
    have c4 : crosses p ⟨x0, y1⟩ ⟨x0, y0⟩ = false := by
      rw [crosses_comm]
      exact crosses_same (by
        constructor
        · intro k; by_contra k'; exact hb ⟨k, not_lt.mp k'⟩
        · intro k; exact lt_trans hy k)
    rw [c2, c4]
    exact ⟨fun hh => by simp at hh, fun hh => absurd ⟨hh.2.2.1, hh.2.2.2.le⟩ hb⟩

/-- Consecutive pairs. -/
def steps (l : List (Pt K)) : List (Pt K × Pt K) := l.zip l.tail

theorem steps_snoc (l : List (Pt K)) (a b : Pt K) : steps (l ++ [a] ++ [b]) = steps (l ++ [a]) ++ [(a, b)] := by
  induction l with
  | nil => rfl
  | cons c l ih =>
    cases l with
    | nil => rfl
    | cons d l =>
      simp only [steps, List.cons_append, List.tail_cons, List.zip_cons_cons, List.cons.injEq, true_and] at ih ⊢
      exact ih

theorem steps_reverse (l : List (Pt K)) : steps l.reverse = ((steps l).map Prod.swap).reverse := by
  induction l with
  | nil => rfl
  | cons a l ih =>
    cases l with
    | nil => rfl
    | cons b l =>
      rw [List.reverse_cons, List.reverse_cons, steps_snoc, ← List.reverse_cons, ih]
      simp [steps]

theorem edges_cons (v : Pt K) (vs : List (Pt K)) : edges (v :: vs) = steps (v :: vs ++ [v]) := by
  unfold edges steps
  simp only [List.rotate_cons_succ, List.rotate_zero, List.cons_append, List.tail_cons]
  have : ∀ (l m : List (Pt K)) (c : Pt K), l.length = m.length → l.zip m = (l ++ [c]).zip m := by
    intro l
    induction l with
    | nil =>
      intro m c h
      have : m = [] := List.length_eq_zero_iff.mp h.symm
      subst this; rfl
    | cons x l ih =>
      intro m c h
      cases m with
      | nil => simp at h
      | cons y m =>
        simp only [List.cons_append, List.zip_cons_cons, List.cons.injEq, true_and]
        exact ih m c (by simpa using h)
  rw [← List.cons_append]
  exact this _ _ _ (by simp)

theorem edges_rotate (l : List (Pt K)) (n : ℕ) : (edges (l.rotate n)).Perm (edges l) := by
  have one : ∀ l : List (Pt K), (edges (l.rotate 1)).Perm (edges l) := by
    intro l
    match l with
    | [] => exact List.Perm.refl _
    | [v] => simp
    | v :: w :: ws =>
      simp only [List.rotate_cons_succ, List.rotate_zero, List.cons_append]
      rw [edges_cons, edges_cons, ← List.cons_append, steps_snoc]
      refine List.perm_append_comm.trans ?_
      simp [steps]
  induction n with
  | zero => simp
  | succ n ih =>
    rw [← List.rotate_rotate]
    exact (one _).trans ih

theorem edges_reverse (l : List (Pt K)) : (edges l.reverse).Perm ((edges l).map Prod.swap) := by
  match l with
  | [] => exact List.Perm.refl _
  | v :: vs =>
    have e : (v :: vs).reverse = (v :: vs.reverse).rotate 1 := by simp
    rw [e]
    refine (edges_rotate _ 1).trans ?_
    rw [edges_cons, edges_cons]
    have e2 : v :: vs.reverse ++ [v] = (v :: vs ++ [v]).reverse := by simp
    rw [e2, steps_reverse]
    exact List.reverse_perm _

/-- **C18.** The start vertex and the direction in which the vertices are listed do not matter, nor does a repeated first
vertex at the end. -/
theorem C18_listing (sq : K → K) (hs : IsSqrt sq) (closed : Bool) (poly : List (Pt K)) (p : Pt K) (h : Clear poly p) :
    (∀ n, isInsidePolygon sq closed p (poly.rotate n) = isInsidePolygon sq closed p poly) ∧
      isInsidePolygon sq closed p poly.reverse = isInsidePolygon sq closed p poly ∧
      (∀ v vs, poly = v :: vs → isInsidePolygon sq closed p (v :: vs ++ [v]) = isInsidePolygon sq closed p poly) := by
  have transfer : ∀ l : List (Pt K), (∀ e ∈ edges l, e ∈ edges poly ∨ e.swap ∈ edges poly ∨ (e.1 = e.2 ∧ e.1 ∈ poly)) →
      Clear l p := by
    intro l hl a b hab
    rcases hl (a, b) ((side_iff l a b).mp hab) with he | he | ⟨he, hm⟩
    · exact h a b ((side_iff poly a b).mpr he)
    · exact fun hn => h b a ((side_iff poly b a).mpr he) hn.symm
    · intro hn
      simp only at he hm
      obtain ⟨q, ⟨t, t0, t1, qx, qy⟩, hd⟩ := hn
      have hm' := hm
      rw [← edges_fst poly, List.mem_map] at hm'
      obtain ⟨e, he2, he3⟩ := hm'
      refine h e.1 e.2 ((side_iff poly _ _).mpr he2) ⟨a, ?_, ?_⟩
      · rw [he3]; exact onSeg_left _ _
      · rw [← he] at qx qy
        have e1 : q.x = a.x := by rw [qx]; ring
        have e2 : q.y = a.y := by rw [qy]; ring
        rwa [e1, e2] at hd
  refine ⟨fun n => ?_, ?_, fun v vs hp => ?_⟩
  · rw [clear_eq hs closed h, clear_eq hs closed (transfer (poly.rotate n) (fun e he => Or.inl
      ((edges_rotate poly n).mem_iff.mp he))), xors_perm ((edges_rotate poly n).map _)]
  · rw [clear_eq hs closed h, clear_eq hs closed (transfer poly.reverse (fun e he => Or.inr (Or.inl (by
      have := (edges_reverse poly).mem_iff.mp he
      rw [List.mem_map] at this
      obtain ⟨e', h1, h2⟩ := this
      rw [← h2]; simpa using h1)))), xors_perm ((edges_reverse poly).map _), List.map_map]
    congr 2
    apply List.map_congr_left
    intro e _
    exact crosses_comm p e.2 e.1
  · have he : edges (v :: vs ++ [v]) = edges (v :: vs) ++ [(v, v)] := by
      rw [List.cons_append, edges_cons, edges_cons, ← List.cons_append, steps_snoc]
    subst hp
    rw [clear_eq hs closed h, clear_eq hs closed (transfer (v :: vs ++ [v]) (fun e hm => by
      rw [he, List.mem_append] at hm
      rcases hm with hm | hm
      · exact Or.inl hm
      · rw [List.mem_singleton] at hm
        subst hm
        exact Or.inr (Or.inr ⟨rfl, by simp⟩))), he, List.map_append]
    have c : crosses p v v = false := crosses_same (by simp)
    rw [xors_perm List.perm_append_comm]
    simp [xors, c]

/-! ## The hypotheses can be met -/

/-- The square root of the reals satisfies the assumption made on `sqrt`. -/
theorem isSqrt_real : IsSqrt Real.sqrt :=
  fun x hx => ⟨Real.sqrt_nonneg x, Real.mul_self_sqrt hx⟩

/-- `(1, 1)` is clear of the triangle `(0, 0), (4, 0), (0, 4)`. -/
theorem clear_sample : Clear (K := ℝ) [⟨0, 0⟩, ⟨4, 0⟩, ⟨0, 4⟩] ⟨1, 1⟩ := by
  have far : ∀ a b : Pt ℝ, (∀ t : ℝ, 1 ≤ (1 - (a.x + t * (b.x - a.x))) ^ 2 + (1 - (a.y + t * (b.y - a.y))) ^ 2) →
      ¬ Near margin (⟨1, 1⟩ : Pt ℝ) a b := by
    rintro a b h ⟨q, ⟨t, -, -, qx, qy⟩, hd⟩
    have := h t
    rw [qx, qy] at hd
    unfold margin at hd
    norm_num at hd this
    nlinarith
  rintro a b ⟨i, hi, ha, hb⟩
  have h3 : i = 0 ∨ i = 1 ∨ i = 2 := by simp at hi; omega
  rcases h3 with rfl | rfl | rfl
  · simp at ha hb; subst ha hb
    exact far _ _ (fun t => by simp only; nlinarith [sq_nonneg (1 - 4 * t)])
  · simp at ha hb; subst ha hb
    exact far _ _ (fun t => by simp only; nlinarith [sq_nonneg (2 * t - 1)])
  · simp at ha hb; subst ha hb
    exact far _ _ (fun t => by simp only; nlinarith [sq_nonneg (1 - 4 * t), sq_nonneg (4 - 4 * t - 1)])

example : isInsidePolygon Real.sqrt false ⟨1, 1⟩ [⟨0, 0⟩, ⟨4, 0⟩, ⟨0, 4⟩] = some true :=
  (C18_triangle Real.sqrt isSqrt_real false ⟨0, 0⟩ ⟨4, 0⟩ ⟨0, 4⟩ ⟨1, 1⟩ clear_sample).mpr
    ⟨by norm_num [Flat], 1 / 2, 1 / 4, 1 / 4, by norm_num, by norm_num, by norm_num, by norm_num, by norm_num, by norm_num⟩

example : isInsidePolygon Real.sqrt true ⟨2, 0⟩ [⟨0, 0⟩, ⟨4, 0⟩, ⟨0, 4⟩] = some true ∧
    isInsidePolygon Real.sqrt false ⟨2, 0⟩ [⟨0, 0⟩, ⟨4, 0⟩, ⟨0, 4⟩] = some false := by
  have hs : Side (K := ℝ) [⟨0, 0⟩, ⟨4, 0⟩, ⟨0, 4⟩] ⟨0, 0⟩ ⟨4, 0⟩ := ⟨0, by simp, rfl, rfl⟩
  have ho : OnSeg (K := ℝ) ⟨2, 0⟩ ⟨0, 0⟩ ⟨4, 0⟩ := ⟨1 / 2, by norm_num, by norm_num, by norm_num, by norm_num⟩
  exact ⟨C18_boundary _ isSqrt_real true _ _ _ _ hs ho, C18_boundary _ isSqrt_real false _ _ _ _ hs ho⟩

end Verif.Polygon
