import Verif.Geom.Spec
import Mathlib.Tactic.FinCases
import Mathlib.Algebra.BigOperators.Field

/-!
# C77: geometry of triangles
-/

namespace Verif.Geom

theorem area_cross (V : Tri) : area V = cross (V 0) (V 1) (V 2) / 2 := by
  unfold area cross
  ring

theorem len_eq (V : Tri) (e : Fin 3) : len V e = dist (tail V e) (head V e) := by
  unfold len dist tail head
  fin_cases e <;> simp [side] <;> congr 1 <;> ring

theorem cross_edge (V : Tri) (e : Fin 3) : cross (tail V e) (head V e) (V e) = cross (V 0) (V 1) (V 2) := by
  unfold tail head cross
  fin_cases e <;> simp <;> ring

theorem sides_ne {V : Tri} (h : CCW V) (e : Fin 3) : tail V e ≠ head V e := by
  intro he
  have := cross_edge V e
  rw [he] at this
  unfold CCW at h
  rw [← this] at h
  simp [cross] at h

theorem dist_pos {a b : ℝ × ℝ} (h : a ≠ b) : 0 < dist a b := by
  unfold dist
  rw [Real.sqrt_pos]
  by_contra hn
  push Not at hn
  have h1 := sq_nonneg (a.1 - b.1)
  have h2 := sq_nonneg (a.2 - b.2)
  have e1 : a.1 - b.1 = 0 := pow_eq_zero_iff two_ne_zero |>.mp (by linarith)
  have e2 : a.2 - b.2 = 0 := pow_eq_zero_iff two_ne_zero |>.mp (by linarith)
  exact h (Prod.ext (by linarith) (by linarith))

theorem len_pos {V : Tri} (h : CCW V) (e : Fin 3) : 0 < len V e := by
  rw [len_eq]
  exact dist_pos (sides_ne h e)

theorem len_sq (V : Tri) (e : Fin 3) : len V e ^ 2 = (side V e).1 ^ 2 + (side V e).2 ^ 2 := by
  unfold len
  exact Real.sq_sqrt (by positivity)

theorem side_eq (V : Tri) (e : Fin 3) : side V e = ((head V e).1 - (tail V e).1, (head V e).2 - (tail V e).2) := by
  unfold side head tail
  fin_cases e <;> rfl

theorem mid_eq (V : Tri) (e : Fin 3) : mid V e = (((tail V e).1 + (head V e).1) / 2, ((tail V e).2 + (head V e).2) / 2) := by
  unfold mid head tail
  fin_cases e <;> simp <;> constructor <;> ring

/-- **C77.** A mesh is accepted exactly if its triangles refer to nodes that exist and run anticlockwise; then there is a cell for each triangle, in
order. -/
theorem C77_accepts (nodes : List (ℝ × ℝ)) (tris : List (Fin 3 → ℕ)) (b : Bool) :
    (build nodes tris b = none ↔ ¬ ((∀ t ∈ tris, ∀ k, t k < nodes.length) ∧ ∀ t ∈ tris, CCW fun k => nodes.getD (t k) (0, 0))) ∧
    ∀ cs, build nodes tris b = some cs → cs.length = tris.length ∧ ∀ (i : ℕ) (c : Cell), cs[i]? = some c → ∃ t, tris[i]? = some t ∧
      ∀ k, nodes[t k]? = some (c.corner k) := by
  have hccw : (∀ c ∈ tris.map fun t => cell b (corners nodes t), c.area > 0) ↔ ∀ t ∈ tris, CCW fun k => nodes.getD (t k) (0, 0) := by
    simp only [List.mem_map, forall_exists_index, and_imp, forall_apply_eq_imp_iff₂]
    refine forall₂_congr fun t _ => ?_
    show area (corners nodes t) > 0 ↔ _
    rw [area_cross]
    unfold CCW corners
    constructor
    · intro h; linarith
    · intro h; linarith
  unfold build
  simp only
  by_cases h1 : ∀ t ∈ tris, ∀ k, t k < nodes.length
  · rw [if_pos h1]
    by_cases h2 : ∀ c ∈ tris.map fun t => cell b (corners nodes t), c.area > 0
    · rw [if_pos h2]
      refine ⟨⟨fun h => by simp at h, fun h => absurd ⟨h1, hccw.mp h2⟩ h⟩, ?_⟩
      rintro cs hcs
      obtain rfl := Option.some.inj hcs
      refine ⟨List.length_map _, ?_⟩
      intro i c hc
      rw [List.getElem?_map, Option.map_eq_some_iff] at hc
      obtain ⟨t, ht, rfl⟩ := hc
      refine ⟨t, ht, fun k => ?_⟩
      have := h1 t (List.mem_of_getElem? ht) k
      show nodes[t k]? = some (nodes.getD (t k) (0, 0))
      rw [List.getElem?_eq_getElem this]
      congr 1
      rw [List.getD_eq_getElem?_getD, List.getElem?_eq_getElem this]
      rfl
    · rw [if_neg h2]
      refine ⟨⟨fun _ h => h2 (hccw.mpr h.2), fun _ => rfl⟩, ?_⟩
      intro cs h; cases h
  · rw [if_neg h1]
    refine ⟨⟨fun _ h => h1 h.1, fun _ => rfl⟩, ?_⟩
    intro cs h; cases h

/-- **C77.** Every cell of an accepted mesh is a triangle that runs anticlockwise, with the geometry of its corners. -/
theorem C77_cells {nodes : List (ℝ × ℝ)} {tris : List (Fin 3 → ℕ)} {b : Bool} {cs : List Cell} (h : build nodes tris b = some cs) {c : Cell}
    (hc : c ∈ cs) : CCW c.corner ∧ c = cell b c.corner := by
  unfold build at h
  simp only at h
  split_ifs at h with h1 h2
  obtain rfl := Option.some.inj h
  have := h2 c hc
  rw [List.mem_map] at hc
  obtain ⟨t, -, rfl⟩ := hc
  refine ⟨?_, rfl⟩
  unfold CCW
  have : area (corners nodes t) > 0 := this
  rw [area_cross] at this
  show 0 < cross (corners nodes t 0) (corners nodes t 1) (corners nodes t 2)
  linarith

/-- **C77.** The area is positive, is half of base times height for each edge, and is the sum of the signed areas seen from any point. -/
theorem C77_area {V : Tri} (h : CCW V) : 0 < area V ∧ (∀ e, area V = len V e * height V e (V e) / 2) ∧
    ∀ p, area V = ∑ e, len V e * height V e p / 2 := by
  have hl : ∀ e p, len V e * height V e p = cross (tail V e) (head V e) p := by
    intro e p
    unfold height
    rw [len_eq]
    have := dist_pos (sides_ne h e)
    field_simp
  refine ⟨?_, ?_, ?_⟩
  · rw [area_cross]
    unfold CCW at h
    linarith
  · intro e
    rw [hl, cross_edge, area_cross]
  · intro p
    simp only [hl]
    rw [area_cross, Fin.sum_univ_three]
    unfold tail head cross
    simp
    ring

/-- **C77.** Normals have length one, are perpendicular to their edge and point away from the opposite corner. -/
theorem C77_normals {V : Tri} (h : CCW V) (e : Fin 3) : dot (normal V e) (normal V e) = 1 ∧
    dot (normal V e) ((head V e).1 - (tail V e).1, (head V e).2 - (tail V e).2) = 0 ∧
    dot (normal V e) ((V e).1 - (mid V e).1, (V e).2 - (mid V e).2) < 0 := by
  have hl := len_pos h e
  have hs := len_sq V e
  refine ⟨?_, ?_, ?_⟩
  · unfold dot normal
    simp only
    rw [show (side V e).2 / len V e * ((side V e).2 / len V e) + -((side V e).1 / len V e) * -((side V e).1 / len V e) =
      ((side V e).1 ^ 2 + (side V e).2 ^ 2) / len V e ^ 2 by field_simp; ring, ← hs]
    exact div_self (by positivity)
  · unfold dot normal
    rw [side_eq]
    simp only
    ring
  · have e1 : dot (normal V e) ((V e).1 - (mid V e).1, (V e).2 - (mid V e).2) = -(cross (V 0) (V 1) (V 2) / len V e) := by
      rw [← cross_edge V e]
      unfold dot normal cross
      rw [side_eq, mid_eq]
      simp only
      field_simp
      ring
    rw [e1]
    have : 0 < cross (V 0) (V 1) (V 2) / len V e := div_pos h hl
    linarith

/-- **C77.** For every field that is linear in space the outflow through the three edges, taken at their midpoints, is divergence times area; in
particular lengths times normals add up to zero. -/
theorem C77_outflow {V : Tri} (h : CCW V) (a b c d f g : ℝ) :
    ∑ e, len V e * dot (normal V e) (a * (mid V e).1 + b * (mid V e).2 + c, d * (mid V e).1 + f * (mid V e).2 + g) = (a + f) * area V := by
  have hl : ∀ e (u : ℝ × ℝ), len V e * dot (normal V e) u = (side V e).2 * u.1 - (side V e).1 * u.2 := by
    intro e u
    have := len_pos h e
    unfold dot normal
    field_simp
    ring
  simp only [hl]
  rw [Fin.sum_univ_three]
  unfold side mid area
  simp
  ring

theorem C77_closed {V : Tri} (h : CCW V) : ∑ e, len V e * (normal V e).1 = 0 ∧ ∑ e, len V e * (normal V e).2 = 0 := by
  have h1 := C77_outflow h 0 0 1 0 0 0
  have h2 := C77_outflow h 0 0 0 0 0 1
  simp [dot] at h1 h2
  exact ⟨h1, h2⟩

/-- **C77.** Two triangles with an edge in common agree on its length and midpoint, and their normals are opposite. -/
theorem C77_shared {V W : Tri} {e f : Fin 3} (h1 : tail V e = head W f) (h2 : head V e = tail W f) :
    len V e = len W f ∧ mid V e = mid W f ∧ normal V e = (-(normal W f).1, -(normal W f).2) := by
  have hl : len V e = len W f := by
    rw [len_eq, len_eq, h1, h2]
    unfold dist
    congr 1
    ring
  refine ⟨hl, ?_, ?_⟩
  · rw [mid_eq, mid_eq, h1, h2]
    simp only [Prod.mk.injEq]
    constructor <;> ring
  · unfold normal
    rw [hl, side_eq, side_eq, h1, h2]
    simp only [Prod.mk.injEq]
    constructor <;> ring

/-- **C77.** The centroid is inside and cuts off a third of the area at each edge. -/
theorem C77_centroid {V : Tri} (h : CCW V) : Inside V (centroid V) ∧ ∀ e, len V e * height V e (centroid V) / 2 = area V / 3 := by
  have h2 : ∀ e, cross (tail V e) (head V e) (centroid V) = cross (V 0) (V 1) (V 2) / 3 := by
    intro e
    unfold tail head cross centroid
    fin_cases e <;> simp <;> ring
  constructor
  · intro e
    unfold height
    rw [h2]
    exact div_pos (div_pos h (by norm_num)) (dist_pos (sides_ne h e))
  · intro e
    unfold height
    rw [h2, len_eq, area_cross]
    have := dist_pos (sides_ne h e)
    field_simp

/-- Perimeter. -/
noncomputable def perimeter (V : Tri) : ℝ := ∑ e, dist (tail V e) (head V e)

theorem radius_true (V : Tri) : radius true V = 2 * area V / perimeter V := by
  unfold radius perimeter
  rw [if_neg (by simp), Fin.sum_univ_three]
  simp only
  congr 1
  unfold tail head dist
  simp
  ring

/-- **C77.** The radius of the inscribed circle, if asked for, is that: a point inside has this distance from all three edges, and no point is further
from all of them. -/
theorem C77_inscribed {V : Tri} (h : CCW V) : (∃ p, Inside V p ∧ ∀ e, height V e p = radius true V) ∧ ∀ p, ∃ e, height V e p ≤ radius true V := by
  set l : Fin 3 → ℝ := fun e => dist (tail V e) (head V e) with hl
  have hp : ∀ e, 0 < l e := fun e => dist_pos (sides_ne h e)
  have hP : 0 < perimeter V := Finset.sum_pos (fun e _ => hp e) ⟨0, Finset.mem_univ _⟩
  have hP' : perimeter V = l 0 + l 1 + l 2 := Fin.sum_univ_three _
  have ha : 0 < area V := (C77_area h).1
  have key : ∀ e, height V e ((l 0 * (V 0).1 + l 1 * (V 1).1 + l 2 * (V 2).1) / perimeter V, (l 0 * (V 0).2 + l 1 * (V 1).2 + l 2 * (V 2).2) / perimeter V)
      = radius true V := by
    intro e
    rw [radius_true, area_cross]
    unfold height
    have hc : cross (tail V e) (head V e)
        ((l 0 * (V 0).1 + l 1 * (V 1).1 + l 2 * (V 2).1) / perimeter V, (l 0 * (V 0).2 + l 1 * (V 1).2 + l 2 * (V 2).2) / perimeter V)
        = l e * cross (V 0) (V 1) (V 2) / perimeter V := by
      rw [eq_div_iff hP.ne']
      have hx : ∀ (a b : ℝ × ℝ) (x y : ℝ), cross a b (x / perimeter V, y / perimeter V) * perimeter V =
          (b.1 - a.1) * (y - a.2 * perimeter V) - (b.2 - a.2) * (x - a.1 * perimeter V) := by
        intro a b x y
        unfold cross
        field_simp
      rw [hx, hP']
      unfold tail head cross
      fin_cases e <;> simp <;> ring
    rw [hc]
    have := hp e
    rw [show dist (tail V e) (head V e) = l e from rfl]
    field_simp
  constructor
  · refine ⟨_, fun e => ?_, key⟩
    rw [key e, radius_true]
    positivity
  · intro p
    by_contra hn
    push Not at hn
    have h3 := (C77_area h).2.2 p
    have h4 : ∑ e, len V e * radius true V / 2 < ∑ e, len V e * height V e p / 2 := by
      refine Finset.sum_lt_sum_of_nonempty ⟨0, Finset.mem_univ _⟩ fun e _ => ?_
      have := mul_lt_mul_of_pos_left (hn e) (len_pos h e)
      linarith
    rw [← h3] at h4
    have h5 : ∑ e, len V e * radius true V / 2 = area V := by
      rw [← Finset.sum_div, ← Finset.sum_mul, show ∑ e, len V e = perimeter V from Finset.sum_congr rfl fun e _ => len_eq V e, radius_true]
      field_simp
    linarith

/-- **C77.** The radius used otherwise is the distance from the centroid to the nearest midpoint of an edge. It is positive and is not less than
the distance from the centroid to some edge. -/
theorem C77_default_radius {V : Tri} (h : CCW V) : (∀ e, radius false V ≤ dist (centroid V) (mid V e)) ∧ (∃ e, radius false V = dist (centroid V) (mid V e)) ∧
    0 < radius false V ∧ ∃ e, height V e (centroid V) ≤ radius false V := by
  have hr : radius false V = min (min (dist (centroid V) (mid V 0)) (dist (centroid V) (mid V 1))) (dist (centroid V) (mid V 2)) := by
    unfold radius
    rw [if_pos rfl]
    rfl
  have hex : ∃ e, radius false V = dist (centroid V) (mid V e) := by
    rw [hr]
    rcases min_choice (min (dist (centroid V) (mid V 0)) (dist (centroid V) (mid V 1))) (dist (centroid V) (mid V 2)) with h1 | h1
    · rw [h1]
      rcases min_choice (dist (centroid V) (mid V 0)) (dist (centroid V) (mid V 1)) with h2 | h2
      · exact ⟨0, h2⟩
      · exact ⟨1, h2⟩
    · exact ⟨2, h1⟩
  have hge : ∀ e, height V e (centroid V) ≤ dist (centroid V) (mid V e) := by
    intro e
    have hd := dist_pos (sides_ne h e)
    have h0 : 0 < height V e (centroid V) := (C77_centroid h).1 e
    unfold dist
    apply Real.le_sqrt_of_sq_le
    unfold height
    rw [div_pow, div_le_iff₀ (by positivity)]
    have hsq : dist (tail V e) (head V e) ^ 2 = ((tail V e).1 - (head V e).1) ^ 2 + ((tail V e).2 - (head V e).2) ^ 2 := by
      unfold dist
      exact Real.sq_sqrt (by positivity)
    rw [hsq, mid_eq]
    unfold cross
    simp only
    nlinarith [sq_nonneg (((centroid V).1 - ((tail V e).1 + (head V e).1) / 2) * ((tail V e).1 - (head V e).1) +
      ((centroid V).2 - ((tail V e).2 + (head V e).2) / 2) * ((tail V e).2 - (head V e).2))]
  obtain ⟨e, he⟩ := hex
  refine ⟨?_, ⟨e, he⟩, ?_, e, he ▸ hge e⟩
  · intro e
    rw [hr]
    fin_cases e
    · exact (min_le_left _ _).trans (min_le_left _ _)
    · exact (min_le_left _ _).trans (min_le_right _ _)
    · exact min_le_right _ _
  · rw [he]
    exact lt_of_lt_of_le ((C77_centroid h).1 e) (hge e)

/-- **C77.** The extent is the smallest rectangle around all corners of triangles. -/
theorem C77_extent {cs : List Cell} {a b c d : ℝ} (h : extent cs = some (a, b, c, d)) :
    (∀ t ∈ cs, ∀ k, a ≤ (t.corner k).1 ∧ (t.corner k).1 ≤ b ∧ c ≤ (t.corner k).2 ∧ (t.corner k).2 ≤ d) ∧
    (∃ t ∈ cs, ∃ k, (t.corner k).1 = a) ∧ (∃ t ∈ cs, ∃ k, (t.corner k).1 = b) ∧ (∃ t ∈ cs, ∃ k, (t.corner k).2 = c) ∧
    ∃ t ∈ cs, ∃ k, (t.corner k).2 = d := by
  unfold extent at h
  simp only at h
  split at h
  · rename_i a' b' c' d' h1 h2 h3 h4
    simp only [Option.some.injEq, Prod.mk.injEq] at h
    obtain ⟨rfl, rfl, rfl, rfl⟩ := h
    rw [List.min?_eq_some_iff] at h1 h3
    rw [List.max?_eq_some_iff] at h2 h4
    simp only [List.mem_flatMap, List.mem_cons, List.not_mem_nil, or_false] at h1 h2 h3 h4
    have key : ∀ {p : Fin 3 → Prop}, p 0 → p 1 → p 2 → ∀ k, p k := by
      intro p h0 h1 h2 k
      fin_cases k <;> assumption
    refine ⟨?_, ?_, ?_, ?_, ?_⟩
    · intro t ht
      apply key
      · exact ⟨h1.2 _ ⟨t, ht, by simp⟩, h2.2 _ ⟨t, ht, by simp⟩, h3.2 _ ⟨t, ht, by simp⟩, h4.2 _ ⟨t, ht, by simp⟩⟩
      · exact ⟨h1.2 _ ⟨t, ht, by simp⟩, h2.2 _ ⟨t, ht, by simp⟩, h3.2 _ ⟨t, ht, by simp⟩, h4.2 _ ⟨t, ht, by simp⟩⟩
      · exact ⟨h1.2 _ ⟨t, ht, by simp⟩, h2.2 _ ⟨t, ht, by simp⟩, h3.2 _ ⟨t, ht, by simp⟩, h4.2 _ ⟨t, ht, by simp⟩⟩
    · obtain ⟨t, ht, h | h | h⟩ := h1.1
      exacts [⟨t, ht, 0, h.symm⟩, ⟨t, ht, 1, h.symm⟩, ⟨t, ht, 2, h.symm⟩]
    · obtain ⟨t, ht, h | h | h⟩ := h2.1
      exacts [⟨t, ht, 0, h.symm⟩, ⟨t, ht, 1, h.symm⟩, ⟨t, ht, 2, h.symm⟩]
    · obtain ⟨t, ht, h | h | h⟩ := h3.1
      exacts [⟨t, ht, 0, h.symm⟩, ⟨t, ht, 1, h.symm⟩, ⟨t, ht, 2, h.symm⟩]
    · obtain ⟨t, ht, h | h | h⟩ := h4.1
      exacts [⟨t, ht, 0, h.symm⟩, ⟨t, ht, 1, h.symm⟩, ⟨t, ht, 2, h.symm⟩]
  · cases h

/-! ## Concrete cases -/

/-- A right triangle with sides 3, 4, 5, and a thin triangle. -/
def right : Tri := ![(0, 0), (4, 0), (0, 3)]
noncomputable def thin : Tri := ![(0, 0), (4, 0), (1, 1 / 10)]

theorem right_0 : right 0 = (0, 0) := rfl
theorem right_1 : right 1 = (4, 0) := rfl
theorem right_2 : right 2 = (0, 3) := rfl
theorem thin_0 : thin 0 = (0, 0) := rfl
theorem thin_1 : thin 1 = (4, 0) := rfl
theorem thin_2 : thin 2 = (1, 1 / 10) := rfl

theorem one_one : (1 : Fin 3) + 1 = 2 := rfl
theorem one_two : (1 : Fin 3) + 2 = 0 := rfl
theorem two_one : (2 : Fin 3) + 1 = 0 := rfl
theorem two_two : (2 : Fin 3) + 2 = 1 := rfl

theorem right_ccw : CCW right := by norm_num [CCW, cross, right_0, right_1, right_2]
theorem thin_ccw : CCW thin := by norm_num [CCW, cross, thin_0, thin_1, thin_2]

/-- **C77, disagreement.** What is called the radius of the inscribed circle can be larger or smaller than that. -/
theorem C77_default_radius_not_inscribed : radius true thin < radius false thin ∧ radius false right < radius true right := by
  constructor
  · have h1 : radius true thin ≤ 1 / 20 := by
      rw [radius_true, div_le_iff₀ (show 0 < perimeter thin from Finset.sum_pos (fun e _ => dist_pos (sides_ne thin_ccw e)) ⟨0, Finset.mem_univ _⟩)]
      have h2 : dist (tail thin 0) (head thin 0) ≥ 3 := Real.le_sqrt_of_sq_le (by norm_num [tail, head, one_one, one_two, two_one, two_two, thin_0, thin_1, thin_2])
      have h3 : dist (tail thin 1) (head thin 1) ≥ 1 := Real.le_sqrt_of_sq_le (by norm_num [tail, head, one_one, one_two, two_one, two_two, thin_0, thin_1, thin_2])
      have h4 : dist (tail thin 2) (head thin 2) ≥ 4 := Real.le_sqrt_of_sq_le (by norm_num [tail, head, one_one, one_two, two_one, two_two, thin_0, thin_1, thin_2])
      unfold perimeter
      rw [Fin.sum_univ_three]
      have : area thin = 1 / 5 := by norm_num [area, thin_0, thin_1, thin_2]
      rw [this]
      linarith
    have h2 : (1 / 3 : ℝ) ≤ radius false thin := by
      obtain ⟨e, he⟩ := (C77_default_radius thin_ccw).2.1
      rw [he]
      apply Real.le_sqrt_of_sq_le
      fin_cases e <;> norm_num [centroid, mid, thin_0, thin_1, thin_2]
    linarith
  · have h1 : radius true right = 1 := by
      rw [radius_true]
      have e0 : dist (tail right 0) (head right 0) = 5 := by
        unfold dist
        rw [show ((tail right 0).1 - (head right 0).1) ^ 2 + ((tail right 0).2 - (head right 0).2) ^ 2 = 5 ^ 2 by norm_num [tail, head, one_one, one_two, two_one, two_two, right_0, right_1, right_2]]
        exact Real.sqrt_sq (by norm_num)
      have e1 : dist (tail right 1) (head right 1) = 3 := by
        unfold dist
        rw [show ((tail right 1).1 - (head right 1).1) ^ 2 + ((tail right 1).2 - (head right 1).2) ^ 2 = 3 ^ 2 by norm_num [tail, head, one_one, one_two, two_one, two_two, right_0, right_1, right_2]]
        exact Real.sqrt_sq (by norm_num)
      have e2 : dist (tail right 2) (head right 2) = 4 := by
        unfold dist
        rw [show ((tail right 2).1 - (head right 2).1) ^ 2 + ((tail right 2).2 - (head right 2).2) ^ 2 = 4 ^ 2 by norm_num [tail, head, one_one, one_two, two_one, two_two, right_0, right_1, right_2]]
        exact Real.sqrt_sq (by norm_num)
      unfold perimeter
      rw [Fin.sum_univ_three, e0, e1, e2]
      norm_num [area, right_0, right_1, right_2]
    rw [h1]
    refine lt_of_le_of_lt ((C77_default_radius right_ccw).1 0) ?_
    unfold dist
    rw [Real.sqrt_lt' one_pos]
    norm_num [centroid, mid, right_0, right_1, right_2]

/-- A mesh of two triangles that is accepted, and the same with one triangle the other way round. -/
example : build [(0, 0), (4, 0), (0, 3), (4, 3)] [![0, 1, 2], ![3, 2, 1]] false ≠ none := by
  rw [ne_eq, (C77_accepts _ _ _).1, not_not]
  refine ⟨?_, ?_⟩
  · intro t ht k
    simp only [List.mem_cons, List.not_mem_nil, or_false] at ht
    rcases ht with rfl | rfl <;> fin_cases k <;> simp
  · intro t ht
    simp only [List.mem_cons, List.not_mem_nil, or_false] at ht
    rcases ht with rfl | rfl
    · show 0 < cross (0, 0) (4, 0) (0, 3)
      norm_num [cross]
    · show 0 < cross (4, 3) (0, 3) (4, 0)
      norm_num [cross]

example : build [(0, 0), (4, 0), (0, 3), (4, 3)] [![0, 1, 2], ![1, 2, 3]] false = none := by
  rw [(C77_accepts _ _ _).1]
  rintro ⟨-, h⟩
  have : 0 < cross (4, 0) (0, 3) (4, 3) := h ![1, 2, 3] (by simp)
  norm_num [cross] at this

end Verif.Geom
