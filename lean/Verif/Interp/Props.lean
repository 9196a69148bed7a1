import Verif.Interp.Lemmas
import Verif.Polygon.PropsTwo

/-! # C39: interpolation of mesh values at points -/

namespace Verif.Interp

set_option linter.unusedSectionVars false

open Verif.Polygon (Pt Flat InTri OnSeg IsSqrt isInsidePolygon)
open Verif.Quad (Tri Covers Almost)

variable {K : Type*} [Field K] [LinearOrder K] [IsStrictOrderedRing K]

variable {m : Mesh K} {pos : ℕ → Pt K} {ts : List (Tri K)}

/-! ## One call -/

theorem block_spec (hm : Fits m pos ts) (sq : K → K) (o : Obj K) (ho : o.mesh = m) (f : List K) (pts : List (Pt K)) (c : Bool) :
    ∃ b, build sq m c pts = some b ∧ o.block sq f pts c = ({ o with built := some b }, b.apply f) := by
  obtain ⟨b, hb, -⟩ := build_spec hm sq c pts
  refine ⟨b, hb, ?_⟩
  unfold Obj.block
  rw [ho, hb]

theorem blocks_spec (hm : Fits m pos ts) (sq : K → K) (f : List K) (hf : f.length = m.nodes) (c : Bool) (bs : List (List (Pt K))) :
    ∀ o : Obj K, o.mesh = m → (Obj.blocks sq f c o bs).2 = some (bs.flatten.map (valueAt sq m c f)) ∧
      (Obj.blocks sq f c o bs).1.mesh = m ∧ (Obj.blocks sq f c o bs).1.points = o.points ∧ (Obj.blocks sq f c o bs).1.reuse = o.reuse := by
  induction bs with
  | nil => intro o ho; exact ⟨rfl, ho, rfl, rfl⟩
  | cons p bs ih =>
    intro o ho
    obtain ⟨b, hb, he⟩ := block_spec hm sq o ho f p c
    obtain ⟨b', hb', h1, -⟩ := build_spec hm sq c p
    rw [hb] at hb'
    obtain rfl := Option.some.inj hb'
    rw [h1 f hf] at he
    obtain ⟨k1, k2, k3, k4⟩ := ih { o with built := some b } ho
    unfold Obj.blocks
    rw [he]
    simp only
    generalize hr : Obj.blocks sq f c { o with built := some b } bs = r at k1 k2 k3 k4
    obtain ⟨o', z⟩ := r
    simp only at k1 k2 k3 k4
    subst k1
    exact ⟨by simp, k2, k3, k4⟩

theorem blocks_fail (hm : Fits m pos ts) (sq : K → K) (f : List K) (hf : f.length ≠ m.nodes) (c : Bool) (p : List (Pt K)) (bs : List (List (Pt K)))
    (o : Obj K) (ho : o.mesh = m) : (Obj.blocks sq f c o (p :: bs)).2 = none ∧
      (Obj.blocks sq f c o (p :: bs)).1.mesh = m ∧ (Obj.blocks sq f c o (p :: bs)).1.points = o.points ∧
      (Obj.blocks sq f c o (p :: bs)).1.reuse = o.reuse := by
  obtain ⟨b, hb, he⟩ := block_spec hm sq o ho f p c
  obtain ⟨b', hb', -, h1, -⟩ := build_spec hm sq c p
  rw [hb] at hb'
  obtain rfl := Option.some.inj hb'
  rw [h1 f hf] at he
  unfold Obj.blocks
  rw [he]
  exact ⟨rfl, ho, rfl, rfl⟩

theorem chunks_flatten (L : ℕ) (pts : List (Pt K)) : (chunks L pts).flatten = pts ∧ chunks L pts ≠ [] := by
  induction hn : pts.length using Nat.strong_induction_on generalizing pts with
  | _ n ih =>
    unfold chunks
    split_ifs with h
    · obtain ⟨h1, -⟩ := ih (pts.drop L).length (by rw [List.length_drop]; omega) (pts.drop L) rfl
      exact ⟨by rw [List.flatten_cons, h1, List.take_append_drop], by simp⟩
    · simp

/-- What a call with points does to the object. -/
theorem fresh_spec (hm : Fits m pos ts) (sq : K → K) (o : Obj K) (ho : o.mesh = m) (f : List K) (pts : List (Pt K)) (L : ℕ) (c : Bool) :
    (o.fresh sq f pts L c).2 = (if f.length = m.nodes then some (pts.map (valueAt sq m c f)) else none) ∧
      (o.fresh sq f pts L c).1.mesh = m ∧ (o.fresh sq f pts L c).1.points = some pts ∧
      ((o.fresh sq f pts L c).1.reuse = true → (o.fresh sq f pts L c).1.built = build sq m c pts) := by
  unfold Obj.fresh
  split_ifs with h hf hf
  · obtain ⟨b, hb, he⟩ := block_spec hm sq { o with points := some pts, reuse := true } ho f pts c
    obtain ⟨b', hb', h1, -⟩ := build_spec hm sq c pts
    rw [hb] at hb'
    obtain rfl := Option.some.inj hb'
    rw [he, hb]
    exact ⟨h1 f hf, ho, rfl, fun _ => rfl⟩
  · obtain ⟨b, hb, he⟩ := block_spec hm sq { o with points := some pts, reuse := true } ho f pts c
    obtain ⟨b', hb', -, h1, -⟩ := build_spec hm sq c pts
    rw [hb] at hb'
    obtain rfl := Option.some.inj hb'
    rw [he, hb]
    exact ⟨h1 f hf, ho, rfl, fun _ => rfl⟩
  · obtain ⟨h1, h2, h3, h4⟩ := blocks_spec hm sq f hf c (chunks L pts) { o with points := some pts, reuse := false } ho
    rw [(chunks_flatten L pts).1] at h1
    refine ⟨h1, h2, h3, fun h5 => ?_⟩
    rw [h4] at h5
    simp at h5
  · cases hc : chunks L pts with
    | nil => exact absurd hc (chunks_flatten L pts).2
    | cons p bs =>
      obtain ⟨h1, h2, h3, h4⟩ := blocks_fail hm sq f hf c p bs { o with points := some pts, reuse := false } ho
      refine ⟨h1, h2, h3, fun h5 => ?_⟩
      rw [h4] at h5
      simp at h5

/-! ## Values -/

theorem valueAt_some {sq : K → K} {f : List K} {x : Pt K} {v : K} (h : valueAt sq m false f x = some v) :
    ∃ t, m.tree.search x = some t ∧ v = (Verif.Quad.sigma sq t x).1 * f.getD (m.tri t.index).1 0 +
      (Verif.Quad.sigma sq t x).2.1 * f.getD (m.tri t.index).2.1 0 + (Verif.Quad.sigma sq t x).2.2 * f.getD (m.tri t.index).2.2 0 := by
  unfold valueAt at h
  by_cases hc : isInsidePolygon sq true x m.boundary = some true
  · rw [if_pos hc] at h
    cases hsr : m.tree.search x with
    | none => rw [hsr] at h; simp at h
    | some t =>
      rw [hsr] at h
      refine ⟨t, rfl, ?_⟩
      simpa [weights] using h.symm
  · rw [if_neg hc] at h
    simp at h

theorem weights_nonneg (sq : K → K) (hs : IsSqrt sq) (t : Tri K) (h : ¬ Flat t.a t.b t.c) (p : Pt K) (u v w : K) (h1 : u + v + w = 1)
    (hx : p.x = u * t.a.x + v * t.b.x + w * t.c.x) (hy : p.y = u * t.a.y + v * t.b.y + w * t.c.y) :
    Verif.Quad.sigma sq t p = (u, v, w) := by
  obtain ⟨k1, k2, k3, -⟩ := Verif.Quad.C27_weights sq hs t h p
  set s := Verif.Quad.sigma sq t p
  obtain ⟨s1, s2, s3⟩ := s
  simp only at k1 k2 k3
  have hD : (t.b.x - t.a.x) * (t.c.y - t.a.y) - (t.b.y - t.a.y) * (t.c.x - t.a.x) ≠ 0 := by
    intro h0
    apply h
    unfold Flat
    linarith
  have e1 : (s2 - v) * (t.b.x - t.a.x) + (s3 - w) * (t.c.x - t.a.x) = 0 := by
    have : s1 = 1 - s2 - s3 := by linarith
    have : u = 1 - v - w := by linarith
    subst s1 u
    linear_combination k2 + hx
  have e2 : (s2 - v) * (t.b.y - t.a.y) + (s3 - w) * (t.c.y - t.a.y) = 0 := by
    have : s1 = 1 - s2 - s3 := by linarith
    have : u = 1 - v - w := by linarith
    subst s1 u
    linear_combination k3 + hy
  have f1 : s2 - v = 0 := by
    have : (s2 - v) * ((t.b.x - t.a.x) * (t.c.y - t.a.y) - (t.b.y - t.a.y) * (t.c.x - t.a.x)) = 0 := by
      linear_combination (t.c.y - t.a.y) * e1 - (t.c.x - t.a.x) * e2
    exact (mul_eq_zero.1 this).resolve_right hD
  have f2 : s3 - w = 0 := by
    have : (s3 - w) * ((t.b.x - t.a.x) * (t.c.y - t.a.y) - (t.b.y - t.a.y) * (t.c.x - t.a.x)) = 0 := by
      linear_combination (t.b.x - t.a.x) * e2 - (t.b.y - t.a.y) * e1
    exact (mul_eq_zero.1 this).resolve_right hD
  have g1 : s2 = v := by linarith
  have g2 : s3 = w := by linarith
  have g3 : s1 = u := by linarith
  rw [g1, g2, g3]

/-- A point of the closed triangle as a convex combination of the corners. -/
theorem covers_weights {t : Tri K} {p : Pt K} (h : Covers t p) : ∃ u v w : K, 0 ≤ u ∧ 0 ≤ v ∧ 0 ≤ w ∧ u + v + w = 1 ∧
    p.x = u * t.a.x + v * t.b.x + w * t.c.x ∧ p.y = u * t.a.y + v * t.b.y + w * t.c.y := by
  rcases h with ⟨-, u, v, w, hu, hv, hw, h1, hx, hy⟩ | ⟨s, h0, h1, hx, hy⟩ | ⟨s, h0, h1, hx, hy⟩ | ⟨s, h0, h1, hx, hy⟩
  · exact ⟨u, v, w, hu.le, hv.le, hw.le, h1, hx, hy⟩
  · exact ⟨1 - s, s, 0, by linarith, h0, le_rfl, by ring, by rw [hx]; ring, by rw [hy]; ring⟩
  · exact ⟨0, 1 - s, s, le_rfl, by linarith, h0, by ring, by rw [hx]; ring, by rw [hy]; ring⟩
  · exact ⟨s, 0, 1 - s, h0, le_rfl, by linarith, by ring, by rw [hx]; ring, by rw [hy]; ring⟩

theorem plane_exists {a b c : Pt K} (h : ¬ Flat a b c) (fa fb fc : K) : ∃ al be ga : K, al + be * a.x + ga * a.y = fa ∧
    al + be * b.x + ga * b.y = fb ∧ al + be * c.x + ga * c.y = fc := by
  have hD : (b.x - a.x) * (c.y - a.y) - (b.y - a.y) * (c.x - a.x) ≠ 0 := by
    intro h0
    apply h
    unfold Flat
    linarith
  set D := (b.x - a.x) * (c.y - a.y) - (b.y - a.y) * (c.x - a.x) with hDdef
  set be := ((fb - fa) * (c.y - a.y) - (fc - fa) * (b.y - a.y)) / D with hbe
  set ga := ((fc - fa) * (b.x - a.x) - (fb - fa) * (c.x - a.x)) / D with hga
  have e1 : be * D = (fb - fa) * (c.y - a.y) - (fc - fa) * (b.y - a.y) := div_mul_cancel₀ _ hD
  have e2 : ga * D = (fc - fa) * (b.x - a.x) - (fb - fa) * (c.x - a.x) := div_mul_cancel₀ _ hD
  refine ⟨fa - be * a.x - ga * a.y, be, ga, by ring, ?_, ?_⟩
  · have : (fa - be * a.x - ga * a.y + be * b.x + ga * b.y - fb) * D = 0 := by
      rw [hDdef] at e1 e2 ⊢
      linear_combination (b.x - a.x) * e1 + (b.y - a.y) * e2
    linarith [(mul_eq_zero.1 this).resolve_right hD]
  · have : (fa - be * a.x - ga * a.y + be * c.x + ga * c.y - fc) * D = 0 := by
      rw [hDdef] at e1 e2 ⊢
      linear_combination (c.x - a.x) * e1 + (c.y - a.y) * e2
    linarith [(mul_eq_zero.1 this).resolve_right hD]

theorem plane_weights {a b c p : Pt K} {u v w : K} (h1 : u + v + w = 1) (hx : u * a.x + v * b.x + w * c.x = p.x)
    (hy : u * a.y + v * b.y + w * c.y = p.y) (al be ga : K) :
    u * (al + be * a.x + ga * a.y) + v * (al + be * b.x + ga * b.y) + w * (al + be * c.x + ga * c.y) = al + be * p.x + ga * p.y := by
  linear_combination al * h1 + be * hx + ga * hy

/-- **C39.** For a point inside or on the boundary polygon and in some triangle, the value is the height of the plane through the three
values at the nodes of a triangle that contains the point (up to `1e-12` of a side). Points outside the polygon, or not in any triangle
(holes), get the no-data value. There is one value per point, in the order of the points, whatever the number of points treated at a time. -/
theorem C39_values (hm : Fits m pos ts) (sq : K → K) (hs : IsSqrt sq) (o : Obj K) (ho : o.mesh = m) (f : List K) (hf : f.length = m.nodes)
    (pts : List (Pt K)) (L : ℕ) :
    ∃ o' z, o.interpolate sq f (some pts) L false = (o', some z) ∧ z.length = pts.length ∧ ∀ (i : ℕ) (x : Pt K), pts[i]? = some x →
      (isInsidePolygon sq true x m.boundary = some true → (∃ t ∈ ts, Covers t x) →
        ∃ t ∈ ts, Almost t x ∧ ∃ a b c v, m.tris[t.index]? = some (a, b, c) ∧ z[i]? = some (some v) ∧
          PlaneThrough (pos a) (pos b) (pos c) (f.getD a 0) (f.getD b 0) (f.getD c 0) x v) ∧
      (isInsidePolygon sq true x m.boundary ≠ some true ∨ (∀ t ∈ ts, ¬ Almost t x) → z[i]? = some none) := by
  obtain ⟨h1, -⟩ := fresh_spec hm sq o ho f pts L false
  rw [if_pos hf] at h1
  refine ⟨(o.fresh sq f pts L false).1, _, Prod.ext rfl h1, by simp, fun i x hx => ⟨fun hin ⟨t, ht, hc⟩ => ?_, fun hno => ?_⟩⟩
  · obtain ⟨fuel, root, hT⟩ := hm.tree
    obtain ⟨s, hsr⟩ := Verif.Quad.C27_complete fuel root ts m.tree hT x t ht hc
    obtain ⟨k1, k2⟩ := search_mem hm hsr
    obtain ⟨b0, -, -, -, e1, e2, e3, -⟩ := tri_of_fits hm k1
    obtain ⟨w1, w2, w3, -⟩ := Verif.Quad.C27_weights sq hs s (hm.proper s k1) x
    rw [e1, e2, e3] at w2 w3
    have hp := hm.proper s k1
    rw [e1, e2, e3] at hp
    obtain ⟨al, be, ga, p1, p2, p3⟩ := plane_exists hp (f.getD (m.tri s.index).1 0) (f.getD (m.tri s.index).2.1 0) (f.getD (m.tri s.index).2.2 0)
    have hv : valueAt sq m false f x = some (al + be * x.x + ga * x.y) := by
      unfold valueAt weights
      rw [if_pos hin, hsr]
      simp only [Bool.false_eq_true, if_false, Option.some.injEq]
      rw [← p1, ← p2, ← p3]
      exact plane_weights w1 w2 w3 al be ga
    refine ⟨s, k1, k2, (m.tri s.index).1, (m.tri s.index).2.1, (m.tri s.index).2.2, al + be * x.x + ga * x.y, b0, ?_, al, be, ga, p1, p2, p3, rfl⟩
    rw [List.getElem?_map, hx, Option.map_some, hv]
  · rw [List.getElem?_map, hx, Option.map_some]
    unfold valueAt
    rcases hno with h | h
    · rw [if_neg h]
    · cases hsr : m.tree.search x with
      | none => simp
      | some t => exact absurd (search_mem hm hsr).2 (h t (search_mem hm hsr).1)

/-- **C39.** A linear function given at the nodes is reproduced at every point that receives a value. -/
theorem C39_linear_function (hm : Fits m pos ts) (sq : K → K) (hs : IsSqrt sq) (o : Obj K) (ho : o.mesh = m) (al be ga : K)
    (pts : List (Pt K)) (L : ℕ) (o' : Obj K) (z : List (Option K))
    (h : o.interpolate sq ((List.range m.nodes).map fun j => al + be * (pos j).x + ga * (pos j).y) (some pts) L false = (o', some z))
    (i : ℕ) (x : Pt K) (hx : pts[i]? = some x) (v : K) (hv : z[i]? = some (some v)) : v = al + be * x.x + ga * x.y := by
  obtain ⟨h1, -⟩ := fresh_spec hm sq o ho ((List.range m.nodes).map fun j => al + be * (pos j).x + ga * (pos j).y) pts L false
  rw [if_pos (by simp)] at h1
  have h : o.fresh sq ((List.range m.nodes).map fun j => al + be * (pos j).x + ga * (pos j).y) pts L false = (o', some z) := h
  rw [h] at h1
  obtain rfl := Option.some.inj h1
  rw [List.getElem?_map, hx, Option.map_some, Option.some.injEq] at hv
  obtain ⟨t, hsr, rfl⟩ := valueAt_some hv
  have k1 := (search_mem hm hsr).1
  obtain ⟨-, b1, b2, b3, e1, e2, e3, -⟩ := tri_of_fits hm k1
  obtain ⟨w1, w2, w3, -⟩ := Verif.Quad.C27_weights sq hs t (hm.proper t k1) x
  rw [e1, e2, e3] at w2 w3
  have g : ∀ j, j < m.nodes → ((List.range m.nodes).map fun j => al + be * (pos j).x + ga * (pos j).y).getD j 0 =
      al + be * (pos j).x + ga * (pos j).y := by
    intro j hj
    rw [List.getD_eq_getElem?_getD, List.getElem?_map, List.getElem?_range hj]
    rfl
  rw [g _ b1, g _ b2, g _ b3]
  exact plane_weights w1 w2 w3 al be ga

/-- **C39.** Values stay within the range of the node values, at points for which every triangle within the tolerance contains them. -/
theorem C39_range (hm : Fits m pos ts) (sq : K → K) (hs : IsSqrt sq) (o : Obj K) (ho : o.mesh = m) (f : List K) (hf : f.length = m.nodes)
    (lo hi : K) (hr : ∀ y ∈ f, lo ≤ y ∧ y ≤ hi) (pts : List (Pt K)) (L : ℕ) (o' : Obj K) (z : List (Option K))
    (h : o.interpolate sq f (some pts) L false = (o', some z)) (i : ℕ) (x : Pt K) (hx : pts[i]? = some x)
    (hc : ∀ t ∈ ts, Almost t x → Covers t x) (v : K) (hv : z[i]? = some (some v)) : lo ≤ v ∧ v ≤ hi := by
  obtain ⟨h1, -⟩ := fresh_spec hm sq o ho f pts L false
  rw [if_pos hf] at h1
  have h : o.fresh sq f pts L false = (o', some z) := h
  rw [h] at h1
  obtain rfl := Option.some.inj h1
  rw [List.getElem?_map, hx, Option.map_some, Option.some.injEq] at hv
  obtain ⟨t, hsr, rfl⟩ := valueAt_some hv
  obtain ⟨k1, k2⟩ := search_mem hm hsr
  obtain ⟨-, b1, b2, b3, -⟩ := tri_of_fits hm k1
  obtain ⟨u, v', w, u0, v0, w0, s1, sx, sy⟩ := covers_weights (hc t k1 k2)
  rw [weights_nonneg sq hs t (hm.proper t k1) x u v' w s1 sx sy]
  have g : ∀ j, j < m.nodes → lo ≤ f.getD j 0 ∧ f.getD j 0 ≤ hi := by
    intro j hj
    rw [List.getD_eq_getElem?_getD, List.getElem?_eq_getElem (by omega)]
    exact hr _ (List.getElem_mem _)
  obtain ⟨l1, r1⟩ := g _ b1
  obtain ⟨l2, r2⟩ := g _ b2
  obtain ⟨l3, r3⟩ := g _ b3
  constructor
  · calc lo = u * lo + v' * lo + w * lo := by rw [← add_mul, ← add_mul, s1, one_mul]
      _ ≤ _ := add_le_add (add_le_add (mul_le_mul_of_nonneg_left l1 u0) (mul_le_mul_of_nonneg_left l2 v0)) (mul_le_mul_of_nonneg_left l3 w0)
  · calc _ ≤ u * hi + v' * hi + w * hi :=
          add_le_add (add_le_add (mul_le_mul_of_nonneg_left r1 u0) (mul_le_mul_of_nonneg_left r2 v0)) (mul_le_mul_of_nonneg_left r3 w0)
      _ = hi := by rw [← add_mul, ← add_mul, s1, one_mul]

/-- **C39.** Which triangle is reported does not matter on a common side: if every triangle near the point has both nodes `j` and `k` among its
corners and the point lies on the segment between them, the value is the linear interpolation between the two node values (so at a node it is
the value at the node). -/
theorem C39_common_side (hm : Fits m pos ts) (sq : K → K) (hs : IsSqrt sq) (o : Obj K) (ho : o.mesh = m) (f : List K) (hf : f.length = m.nodes)
    (pts : List (Pt K)) (L : ℕ) (o' : Obj K) (z : List (Option K)) (h : o.interpolate sq f (some pts) L false = (o', some z)) (i : ℕ) (x : Pt K)
    (hx : pts[i]? = some x) (j k : ℕ) (s : K) (hxs : x.x = (1 - s) * (pos j).x + s * (pos k).x) (hys : x.y = (1 - s) * (pos j).y + s * (pos k).y)
    (hall : ∀ t ∈ ts, Almost t x → ∀ a b c, m.tris[t.index]? = some (a, b, c) → j ∈ [a, b, c] ∧ (s = 0 ∨ k ∈ [a, b, c]))
    (v : K) (hv : z[i]? = some (some v)) : v = (1 - s) * f.getD j 0 + s * f.getD k 0 := by
  obtain ⟨h1, -⟩ := fresh_spec hm sq o ho f pts L false
  rw [if_pos hf] at h1
  have h : o.fresh sq f pts L false = (o', some z) := h
  rw [h] at h1
  obtain rfl := Option.some.inj h1
  rw [List.getElem?_map, hx, Option.map_some, Option.some.injEq] at hv
  obtain ⟨t, hsr, hv⟩ := valueAt_some hv
  obtain ⟨k1, k2⟩ := search_mem hm hsr
  obtain ⟨b0, -, -, -, e1, e2, e3, -⟩ := tri_of_fits hm k1
  obtain ⟨hj, hk⟩ := hall t k1 k2 (m.tri t.index).1 (m.tri t.index).2.1 (m.tri t.index).2.2 b0
  have key : ∀ u v' w : K, u + v' + w = 1 →
      x.x = u * (pos (m.tri t.index).1).x + v' * (pos (m.tri t.index).2.1).x + w * (pos (m.tri t.index).2.2).x →
      x.y = u * (pos (m.tri t.index).1).y + v' * (pos (m.tri t.index).2.1).y + w * (pos (m.tri t.index).2.2).y →
      v = u * f.getD (m.tri t.index).1 0 + v' * f.getD (m.tri t.index).2.1 0 + w * f.getD (m.tri t.index).2.2 0 := by
    intro u v' w s1 sx sy
    rw [weights_nonneg sq hs t (hm.proper t k1) x u v' w s1 (by rw [e1, e2, e3]; exact sx) (by rw [e1, e2, e3]; exact sy)] at hv
    exact hv
  clear b0 e1 e2 e3 hv hsr hall
  generalize m.tri t.index = js at hj hk key
  obtain ⟨a, b, c⟩ := js
  simp only [List.mem_cons, List.not_mem_nil, or_false] at hj hk key
  have hk' : s = 0 ∨ k = a ∨ k = b ∨ k = c := hk
  rcases hk' with rfl | hk'
  · have hx1 : x.x = (pos j).x := by rw [hxs]; ring
    have hy1 : x.y = (pos j).y := by rw [hys]; ring
    rcases hj with rfl | rfl | rfl
    · rw [key 1 0 0 (by ring) (by rw [hx1]; ring) (by rw [hy1]; ring)]; ring
    · rw [key 0 1 0 (by ring) (by rw [hx1]; ring) (by rw [hy1]; ring)]; ring
    · rw [key 0 0 1 (by ring) (by rw [hx1]; ring) (by rw [hy1]; ring)]; ring
  · rcases hj with rfl | rfl | rfl <;> rcases hk' with rfl | rfl | rfl
    · rw [key 1 0 0 (by ring) (by rw [hxs]; ring) (by rw [hys]; ring)]; ring
    · rw [key (1 - s) s 0 (by ring) (by rw [hxs]; ring) (by rw [hys]; ring)]; ring
    · rw [key (1 - s) 0 s (by ring) (by rw [hxs]; ring) (by rw [hys]; ring)]; ring
    · rw [key s (1 - s) 0 (by ring) (by rw [hxs]; ring) (by rw [hys]; ring)]; ring
    · rw [key 0 1 0 (by ring) (by rw [hxs]; ring) (by rw [hys]; ring)]; ring
    · rw [key 0 (1 - s) s (by ring) (by rw [hxs]; ring) (by rw [hys]; ring)]; ring
    · rw [key s 0 (1 - s) (by ring) (by rw [hxs]; ring) (by rw [hys]; ring)]; ring
    · rw [key 0 s (1 - s) (by ring) (by rw [hxs]; ring) (by rw [hys]; ring)]; ring
    · rw [key 0 0 1 (by ring) (by rw [hxs]; ring) (by rw [hys]; ring)]; ring

/-- **C39.** Interpolation is linear in the data: values of a combination are the combination of the values, no-data in the same places. -/
theorem C39_linear_in_data (hm : Fits m pos ts) (sq : K → K) (o o2 o3 : Obj K) (ho : o.mesh = m) (ho2 : o2.mesh = m) (ho3 : o3.mesh = m)
    (f g : List K) (hf : f.length = m.nodes) (hg : g.length = m.nodes) (r s : K) (pts : List (Pt K)) (L L2 L3 : ℕ) (c : Bool) :
    ∃ z1 z2 z3, (o.interpolate sq f (some pts) L c).2 = some z1 ∧ (o2.interpolate sq g (some pts) L2 c).2 = some z2 ∧
      (o3.interpolate sq (List.zipWith (fun x y => r * x + s * y) f g) (some pts) L3 c).2 = some z3 ∧
      z3 = List.zipWith (fun x y => x.bind fun x => y.map fun y => r * x + s * y) z1 z2 := by
  have hl : (List.zipWith (fun x y => r * x + s * y) f g).length = m.nodes := by simp [hf, hg]
  have h1 := (fresh_spec hm sq o ho f pts L c).1
  have h2 := (fresh_spec hm sq o2 ho2 g pts L2 c).1
  have h3 := (fresh_spec hm sq o3 ho3 (List.zipWith (fun x y => r * x + s * y) f g) pts L3 c).1
  rw [if_pos hf] at h1
  rw [if_pos hg] at h2
  rw [if_pos hl] at h3
  refine ⟨_, _, _, h1, h2, h3, ?_⟩
  rw [List.zipWith_map, List.zipWith_self]
  apply List.map_congr_left
  intro x _
  unfold valueAt
  split_ifs
  · cases hsr : m.tree.search x with
    | none => rfl
    | some t =>
      obtain ⟨-, b1, b2, b3, -⟩ := tri_of_fits hm (search_mem hm hsr).1
      have e : ∀ j, j < m.nodes → (List.zipWith (fun x y => r * x + s * y) f g).getD j 0 = r * f.getD j 0 + s * g.getD j 0 := by
        intro j hj
        have a : f[j]? = some (f[j]'(by omega)) := List.getElem?_eq_getElem (by omega)
        have b : g[j]? = some (g[j]'(by omega)) := List.getElem?_eq_getElem (by omega)
        simp only [List.getD_eq_getElem?_getD, List.getElem?_zipWith, a, b, Option.getD_some]
      simp only [e _ b1, e _ b2, e _ b3, Option.bind_some, Option.map_some, Option.some.injEq]
      ring
  · rfl

/-- **C39.** With `output_centroids` the value is the mean of the three node values of a triangle at the point. -/
theorem C39_centroids (hm : Fits m pos ts) (sq : K → K) (o : Obj K) (ho : o.mesh = m) (f : List K) (hf : f.length = m.nodes)
    (pts : List (Pt K)) (L : ℕ) :
    ∃ z, (o.interpolate sq f (some pts) L true).2 = some z ∧ ∀ (i : ℕ) (x : Pt K), pts[i]? = some x →
      (isInsidePolygon sq true x m.boundary = some true → (∃ t ∈ ts, Covers t x) →
        ∃ t ∈ ts, Almost t x ∧ ∃ a b c, m.tris[t.index]? = some (a, b, c) ∧
          z[i]? = some (some ((f.getD a 0 + f.getD b 0 + f.getD c 0) / 3))) ∧
      (isInsidePolygon sq true x m.boundary ≠ some true ∨ (∀ t ∈ ts, ¬ Almost t x) → z[i]? = some none) := by
  obtain ⟨h1, -⟩ := fresh_spec hm sq o ho f pts L true
  rw [if_pos hf] at h1
  refine ⟨_, h1, fun i x hx => ⟨fun hin ⟨t, ht, hc⟩ => ?_, fun hno => ?_⟩⟩
  · obtain ⟨fuel, root, hT⟩ := hm.tree
    obtain ⟨s, hsr⟩ := Verif.Quad.C27_complete fuel root ts m.tree hT x t ht hc
    obtain ⟨k1, k2⟩ := search_mem hm hsr
    obtain ⟨b0, -⟩ := tri_of_fits hm k1
    refine ⟨s, k1, k2, (m.tri s.index).1, (m.tri s.index).2.1, (m.tri s.index).2.2, b0, ?_⟩
    rw [List.getElem?_map, hx, Option.map_some]
    unfold valueAt weights
    rw [if_pos hin, hsr]
    simp only [if_true, Option.some.injEq]
    ring
  · rw [List.getElem?_map, hx, Option.map_some]
    unfold valueAt
    rcases hno with h | h
    · rw [if_neg h]
    · cases hsr : m.tree.search x with
      | none => simp
      | some t => exact absurd (search_mem hm hsr).2 (h t (search_mem hm hsr).1)

/-- **C39.** Data whose length is not the number of nodes is refused. -/
theorem C39_wrong_length (hm : Fits m pos ts) (sq : K → K) (o : Obj K) (ho : o.mesh = m) (f : List K) (hf : f.length ≠ m.nodes)
    (pts : List (Pt K)) (L : ℕ) (c : Bool) : (o.interpolate sq f (some pts) L c).2 = none := by
  have h1 := (fresh_spec hm sq o ho f pts L c).1
  rw [if_neg hf] at h1
  exact h1

/-- **C39.** `get_outside_poly_indices` after a call that was not split lists exactly the points that got no value. -/
theorem C39_outside_indices (hm : Fits m pos ts) (sq : K → K) (o : Obj K) (ho : o.mesh = m) (f : List K) (hf : f.length = m.nodes)
    (pts : List (Pt K)) (L : ℕ) (hL : pts.length < L ∨ L = 0) (c : Bool) :
    ∃ o' b z, o.interpolate sq f (some pts) L c = (o', some z) ∧ o'.built = some b ∧
      ∀ i < pts.length, (i ∈ b.outside ↔ z[i]? = some none) := by
  obtain ⟨b, hb, h1, -, h3⟩ := build_spec hm sq c pts
  have e : o.interpolate sq f (some pts) L c = ({ o with points := some pts, reuse := true, built := some b }, b.apply f) := by
    show o.fresh sq f pts L c = _
    unfold Obj.fresh Obj.block
    rw [if_pos hL]
    simp only [ho, hb]
  refine ⟨_, b, _, e.trans (by rw [h1 f hf]), rfl, fun i hi => ?_⟩
  have hx : pts[i]? = some pts[i] := List.getElem?_eq_getElem hi
  rw [h3 i _ hx, List.getElem?_map, hx, Option.map_some, Option.some.injEq]
  unfold valueAt
  constructor
  · intro h
    split_ifs with h4
    · cases hsr : m.tree.search pts[i] with
      | none => rfl
      | some t => exact absurd ⟨h4, t, hsr⟩ h
    · rfl
  · rintro h ⟨h4, t, ht⟩
    rw [if_pos h4, ht] at h
    simp at h

/-! ## Several calls -/

/-- A call of `interpolate`: data, points (or none), block length, centroid flag. -/
structure Call (K : Type*) where
  f : List K
  pts : Option (List (Pt K))
  len : ℕ

/-- The object after a number of calls, some of which may have raised. -/
def after (sq : K → K) (c : Bool) : Obj K → List (Call K) → Obj K
  | o, [] => o
  | o, k :: ks => after sq c (o.interpolate sq k.f k.pts k.len c).1 ks

/-- The points given last. -/
def lastPoints : List (Call K) → Option (List (Pt K))
  | [] => none
  | k :: ks => (lastPoints ks).or k.pts

theorem interpolate_state (hm : Fits m pos ts) (sq : K → K) (c : Bool) (o : Obj K) (ho : o.mesh = m)
    (hr : o.reuse = true → ∃ p, o.points = some p ∧ o.built = build sq m c p) (k : Call K) :
    let o' := (o.interpolate sq k.f k.pts k.len c).1
    o'.mesh = m ∧ (o'.reuse = true → ∃ p, o'.points = some p ∧ o'.built = build sq m c p) ∧ o'.points = k.pts.or o.points := by
  intro o'
  cases hp : k.pts with
  | some p =>
    have e : o' = (o.fresh sq k.f p k.len c).1 := by simp only [o', Obj.interpolate, hp]
    obtain ⟨-, h1, h2, h3⟩ := fresh_spec hm sq o ho k.f p k.len c
    rw [e]
    exact ⟨h1, fun h => ⟨p, h2, h3 h⟩, by rw [h2]; rfl⟩
  | none =>
    cases hq : o.points with
    | none =>
      have e : o' = o := by simp only [o', Obj.interpolate, hp, hq]
      rw [e]
      exact ⟨ho, hr, by rw [hq]; rfl⟩
    | some p =>
      by_cases hb : o.reuse = true ∧ p.length < k.len
      · have e : o' = o := by simp only [o', Obj.interpolate, hp, hq, if_pos hb]
        rw [e]
        exact ⟨ho, hr, by rw [hq]; rfl⟩
      · have e : o' = (o.fresh sq k.f p k.len c).1 := by simp only [o', Obj.interpolate, hp, hq, if_neg hb]
        obtain ⟨-, h1, h2, h3⟩ := fresh_spec hm sq o ho k.f p k.len c
        rw [e]
        exact ⟨h1, fun h => ⟨p, h2, h3 h⟩, by rw [h2]; rfl⟩

theorem after_state (hm : Fits m pos ts) (sq : K → K) (c : Bool) (ks : List (Call K)) : ∀ (o : Obj K), o.mesh = m →
    (o.reuse = true → ∃ p, o.points = some p ∧ o.built = build sq m c p) →
    (after sq c o ks).mesh = m ∧ ((after sq c o ks).reuse = true → ∃ p, (after sq c o ks).points = some p ∧
      (after sq c o ks).built = build sq m c p) ∧ (after sq c o ks).points = (lastPoints ks).or o.points := by
  induction ks with
  | nil => intro o ho hr; exact ⟨ho, hr, by simp [after, lastPoints]⟩
  | cons k ks ih =>
    intro o ho hr
    obtain ⟨h1, h2, h3⟩ := interpolate_state hm sq c o ho hr k
    obtain ⟨k1, k2, k3⟩ := ih _ h1 h2
    refine ⟨k1, k2, ?_⟩
    show (after sq c _ ks).points = _
    rw [k3, h3]
    show _ = ((lastPoints ks).or k.pts).or o.points
    rw [Option.or_assoc]

/-- **C39.** History: after any calls of `interpolate` on a new object (also failed ones, split or not), a call without points gives what a
new object gives for the points passed last; if no points were ever given it raises. -/
theorem C39_repeat (hm : Fits m pos ts) (sq : K → K) (c : Bool) (ks : List (Call K)) (g : List K) (L L' : ℕ) :
    (∀ p, lastPoints ks = some p → ((after sq c (.new m) ks).interpolate sq g none L c).2 = ((Obj.new m).interpolate sq g (some p) L' c).2) ∧
      (lastPoints ks = none → ((after sq c (.new m) ks).interpolate sq g none L c).2 = none) := by
  obtain ⟨h1, h2, h3⟩ := after_state hm sq c ks (.new m) rfl (by simp [Obj.new])
  generalize after sq c (.new m) ks = o at h1 h2 h3
  constructor
  · intro p hp
    rw [hp] at h3
    have h3 : o.points = some p := h3
    have hR := (fresh_spec hm sq (.new m) rfl g p L' c).1
    have hR : ((Obj.new m).interpolate sq g (some p) L' c).2 = _ := hR
    rw [hR]
    by_cases hb : o.reuse = true ∧ p.length < L
    · have e : (o.interpolate sq g none L c).2 = o.built.bind fun b => b.apply g := by simp only [Obj.interpolate, h3, if_pos hb]
      obtain ⟨q, hq, hq2⟩ := h2 hb.1
      rw [h3] at hq
      obtain rfl := Option.some.inj hq
      obtain ⟨b, k1, k2, k3, -⟩ := build_spec hm sq c p
      rw [e, hq2, k1]
      simp only [Option.bind_some]
      split_ifs with hg
      · exact k2 g hg
      · exact k3 g hg
    · have e : (o.interpolate sq g none L c).2 = (o.fresh sq g p L c).2 := by simp only [Obj.interpolate, h3, if_neg hb]
      rw [e]
      exact (fresh_spec hm sq o h1 g p L c).1
  · intro hp
    rw [hp] at h3
    have h3 : o.points = none := h3
    simp only [Obj.interpolate, h3]

/-! ## The unit square -/

/-- Two triangles making up the unit square. -/
def sqTris : List (Tri ℚ) := [⟨0, ⟨0, 0⟩, ⟨1, 0⟩, ⟨0, 1⟩⟩, ⟨1, ⟨1, 0⟩, ⟨1, 1⟩, ⟨0, 1⟩⟩]

/-- Corners of the square. -/
def sqPos : ℕ → Pt ℚ
  | 0 => ⟨0, 0⟩
  | 1 => ⟨1, 0⟩
  | 2 => ⟨1, 1⟩
  | _ => ⟨0, 1⟩

/-- The mesh object of the square. -/
def sqMesh : Mesh ℚ :=
  ⟨4, [(0, 1, 3), (1, 2, 3)], .tip ⟨-1, 3, -1, 3⟩ sqTris 2, [⟨0, 0⟩, ⟨1, 0⟩, ⟨1, 1⟩, ⟨0, 1⟩]⟩

theorem sqMesh_fits : Fits sqMesh sqPos sqTris where
  tree := ⟨1, ⟨-1, 3, -1, 3⟩, by
    have h1 : Verif.Quad.quadOfTri (⟨-1, 3, -1, 3⟩ : Verif.Quad.Box ℚ) ⟨0, ⟨0, 0⟩, ⟨1, 0⟩, ⟨0, 1⟩⟩ = 0 := by decide +kernel
    have h2 : Verif.Quad.quadOfTri (⟨-1, 3, -1, 3⟩ : Verif.Quad.Box ℚ) ⟨1, ⟨1, 0⟩, ⟨1, 1⟩, ⟨0, 1⟩⟩ = 0 := by decide +kernel
    simp [Verif.Quad.buildTree, sqTris, Verif.Quad.insertTri, Verif.Quad.Tree.new, sqMesh, h1, h2]⟩
  nodes := by
    intro t ht
    simp only [sqTris, List.mem_cons, List.not_mem_nil, or_false] at ht
    rcases ht with rfl | rfl
    · exact ⟨0, 1, 3, rfl, by decide, by decide, by decide, rfl, rfl, rfl⟩
    · exact ⟨1, 2, 3, rfl, by decide, by decide, by decide, rfl, rfl, rfl⟩
  proper := by
    intro t ht
    simp only [sqTris, List.mem_cons, List.not_mem_nil, or_false] at ht
    unfold Flat
    rcases ht with rfl | rfl <;> norm_num

/-- A point of the square and one outside. (The weights are ratios in which the square roots cancel, so `id` serves for `sq` here.) -/
example : ((Obj.new sqMesh).interpolate id [0, 10, 30, 20] (some [⟨1 / 4, 1 / 4⟩, ⟨2, 2⟩]) 1000 true).2 = some [some 10, none] := by decide +kernel

/-- The same points in blocks of one. -/
example : ((Obj.new sqMesh).interpolate id [0, 10, 30, 20] (some [⟨1 / 4, 1 / 4⟩, ⟨2, 2⟩]) 1 true).2 = some [some 10, none] := by decide +kernel

/-- **C39.** `output_centroids` of a call without points is ignored when the matrix is kept: the mean of the nodes requested by the earlier call
is returned again instead of the value at the point (here at the node with value 0). -/
theorem C39_flag_kept :
    let o := ((Obj.new sqMesh).interpolate id [0, 10, 30, 20] (some [⟨0, 0⟩]) 1000 true).1
    (o.interpolate id [0, 10, 30, 20] none 1000 false).2 = some [some 10] ∧
      ((Obj.new sqMesh).interpolate id [0, 10, 30, 20] (some [⟨0, 0⟩]) 1000 false).2 = some [some 0] := by decide +kernel

/-- **C39.** A call of `interpolate_block` between two calls of `interpolate` changes the answer of the second one, if that is made without
points: the values belong to the points of the block. -/
theorem C39_block_interferes :
    let o := ((Obj.new sqMesh).interpolate id [0, 10, 30, 20] (some [⟨0, 0⟩]) 1000 false).1
    let o := (o.block id [0, 10, 30, 20] [⟨1, 0⟩] false).1
    o.points = some [⟨0, 0⟩] ∧ (o.interpolate id [0, 10, 30, 20] none 1000 false).2 = some [some 10] := by decide +kernel

end Verif.Interp
