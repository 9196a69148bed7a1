import Verif.Forcing.Props
import Verif.Polygon.PropsTwo
import Verif.Loop.Sample

/-!
# C84: the hypotheses can be met; limits
-/

namespace Verif.Forcing

open Verif.Polygon (Pt Side OnSeg Clear Near margin isSqrt_real)

/-- A square of two triangles. -/
noncomputable def sq : Loop.Mesh ℝ := ⟨2, fun k j => ([[⟨0, 0⟩, ⟨4, 0⟩, ⟨0, 4⟩], [⟨4, 0⟩, ⟨4, 4⟩, ⟨0, 4⟩]].getD k []).getD j ⟨0, 0⟩, [(0, 1), (0, 2), (1, 0), (1, 2)]⟩

/-- Its boundary polygon. -/
noncomputable def sqB : List (Pt ℝ) := [⟨0, 0⟩, ⟨4, 0⟩, ⟨4, 4⟩, ⟨0, 4⟩]

theorem sq_ccw : sq.Ccw := by
  intro k hk
  have : k = 0 ∨ k = 1 := by have : k < 2 := hk; omega
  rcases this with rfl | rfl <;> norm_num [sq, Polygon.twoTri]

theorem sq_area : sq.area = 16 := by
  unfold Loop.Mesh.area
  rw [show sq.n = 2 from rfl, Finset.sum_range_succ, Finset.sum_range_one]
  norm_num [sq, Polygon.twoTri]

theorem sqB_area : Polygon.polygonArea sqB = 16 := by
  rw [Polygon.area_sumE ⟨0, 0⟩]
  norm_num [sqB, Polygon.sumE, Polygon.edges, Polygon.twoTri]

theorem far {p a b : Pt ℝ} (h : ∀ t : ℝ, 1 / 100 ≤ (p.x - (a.x + t * (b.x - a.x))) ^ 2 + (p.y - (a.y + t * (b.y - a.y))) ^ 2) : ¬ Near margin p a b := by
  rintro ⟨q, ⟨t, -, -, qx, qy⟩, hd⟩
  have := h t
  rw [qx, qy] at hd
  have hm : (margin : ℝ) * margin < 1 / 100 := by norm_num [margin]
  nlinarith

theorem clear_square {p : Pt ℝ} (h1 : 1 / 2 ≤ p.x) (h2 : p.x ≤ 7 / 2) (h3 : 1 / 2 ≤ p.y) (h4 : p.y ≤ 7 / 2) : Clear sqB p := by
  rintro a b ⟨i, hi, ha, hb⟩
  have h : i = 0 ∨ i = 1 ∨ i = 2 ∨ i = 3 := by simp [sqB] at hi; omega
  rcases h with rfl | rfl | rfl | rfl <;> simp [sqB] at ha hb <;> subst ha hb <;> apply far <;> intro t <;> simp only
  · nlinarith [sq_nonneg (p.x - (0 + t * (4 - 0)))]
  · nlinarith [sq_nonneg (p.y - (0 + t * (4 - 0)))]
  · nlinarith [sq_nonneg (p.x - (4 + t * (0 - 4)))]
  · nlinarith [sq_nonneg (p.y - (4 + t * (0 - 4)))]

theorem within_square {p : Pt ℝ} (h1 : 1 / 2 ≤ p.x) (h2 : p.x ≤ 7 / 2) (h3 : 1 / 2 ≤ p.y) (h4 : p.y ≤ 7 / 2) : Within sqB p :=
  (Polygon.C18_rectangle Real.sqrt isSqrt_real true 0 4 0 4 (by norm_num) (by norm_num) p (clear_square h1 h2 h3 h4)).mpr
    ⟨by linarith, by linarith, by linarith, by linarith⟩

/-- The lower left half of the square. -/
noncomputable def half : List (Pt ℝ) := [⟨0, 0⟩, ⟨4, 0⟩, ⟨0, 4⟩]

theorem clear_half {p : Pt ℝ} (h1 : 1 / 2 ≤ p.x) (h3 : 1 / 2 ≤ p.y) (h4 : p.x + p.y ≤ 7 / 2 ∨ 9 / 2 ≤ p.x + p.y) : Clear half p := by
  rintro a b ⟨i, hi, ha, hb⟩
  have h : i = 0 ∨ i = 1 ∨ i = 2 := by simp [half] at hi; omega
  rcases h with rfl | rfl | rfl <;> simp [half] at ha hb <;> subst ha hb <;> apply far <;> intro t <;> simp only
  · nlinarith [sq_nonneg (p.x - (0 + t * (4 - 0)))]
  · have h5 : 1 / 4 ≤ (p.x + p.y - 4) ^ 2 := by rcases h4 with h4 | h4 <;> nlinarith
    nlinarith [sq_nonneg ((p.x - (4 + t * (0 - 4))) - (p.y - (0 + t * (4 - 0))))]
  · nlinarith [sq_nonneg (p.y - (4 + t * (0 - 4)))]

theorem half_has : Place.Has sq (.polygon half) 0 ∧ ¬ Place.Has sq (.polygon half) 1 := by
  have h0 : middle sq 0 = ⟨4 / 3, 4 / 3⟩ := by norm_num [middle, sq]
  have h1 : middle sq 1 = ⟨8 / 3, 8 / 3⟩ := by norm_num [middle, sq]
  constructor
  · refine ⟨by norm_num [sq], ?_⟩
    rw [h0]
    refine (Polygon.C18_triangle Real.sqrt isSqrt_real true _ _ _ _ (clear_half (by norm_num) (by norm_num) (by norm_num))).mpr ?_
    exact ⟨by norm_num [Polygon.Flat], 1 / 3, 1 / 3, 1 / 3, by norm_num, by norm_num, by norm_num, by norm_num, by norm_num, by norm_num⟩
  · rintro ⟨-, h⟩
    rw [h1] at h
    obtain ⟨-, u, v, w, hu, hv, hw, hs, hx, hy⟩ :=
      (Polygon.C18_triangle Real.sqrt isSqrt_real true _ _ _ _ (clear_half (p := ⟨8 / 3, 8 / 3⟩) (by norm_num) (by norm_num) (by norm_num))).mp h
    simp at hx hy
    linarith

theorem half_tested : Place.Tested sqB (.polygon half) := by
  intro p hp
  simp only [half, List.mem_cons, List.not_mem_nil, or_false] at hp
  rcases hp with rfl | rfl | rfl
  · exact Polygon.C18_boundary _ isSqrt_real true sqB _ ⟨0, 0⟩ ⟨4, 0⟩ ⟨0, by simp [sqB], rfl, rfl⟩ (Polygon.onSeg_left _ _)
  · exact Polygon.C18_boundary _ isSqrt_real true sqB _ ⟨0, 0⟩ ⟨4, 0⟩ ⟨0, by simp [sqB], rfl, rfl⟩ (Polygon.onSeg_right _ _)
  · exact Polygon.C18_boundary _ isSqrt_real true sqB _ ⟨0, 4⟩ ⟨0, 0⟩ ⟨3, by simp [sqB], rfl, rfl⟩ (Polygon.onSeg_left _ _)

/-- The hypotheses of `C84_accepts`, `C84_rain`, `C84_inflow`, `C84_default` can be met: a polygon with one of the two triangles. -/
theorem half_accepted : ∃ b, build sq sqB none none (some half) = .ok b :=
  (C84_accepts sq_ccw _ _ _).mpr ⟨.polygon half, ⟨rfl, rfl, rfl⟩, half_tested, Or.inr ⟨0, half_has.1⟩⟩

/-- Likewise for a circle with both triangles. -/
theorem circle_accepted : ∃ b, build sq sqB (some ⟨2, 2⟩) (some 1) none = .ok b := by
  refine (C84_accepts sq_ccw _ _ _).mpr ⟨.circle ⟨2, 2⟩ 1, ⟨rfl, rfl, rfl⟩, ⟨within_square (by norm_num) (by norm_num) (by norm_num) (by norm_num), fun i _ => ?_⟩, Or.inr ⟨0, ?_⟩⟩
  · have h1 := Real.neg_one_le_cos (2 * Real.pi * i / 100)
    have h2 := Real.cos_le_one (2 * Real.pi * i / 100)
    have h3 := Real.neg_one_le_sin (2 * Real.pi * i / 100)
    have h4 := Real.sin_le_one (2 * Real.pi * i / 100)
    exact within_square (by simp only; linarith) (by simp only; linarith) (by simp only; linarith) (by simp only; linarith)
  · refine ⟨by norm_num [sq], ?_⟩
    norm_num [middle, sq]

theorem ok_map {α β : Type*} {x : Except Err α} {f : α → β} (h : ∃ b, x = .ok b) : ∃ b, x.map f = .ok b := by
  obtain ⟨b, rfl⟩ := h
  exact ⟨f b, rfl⟩

theorem half_tris : ∑ k ∈ Place.tris sq (.polygon half), size sq k = 8 := by
  classical
  unfold Place.tris
  rw [Finset.sum_filter, show sq.n = 2 from rfl, Finset.sum_range_succ, Finset.sum_range_one, if_pos half_has.1, if_neg half_has.2]
  norm_num [size, sq, Polygon.twoTri]

/-- A tap of 3 m³/s in the lower left half: the first triangle rises by 3/8 m/s, the second not at all. -/
example : ∃ T u', inflow sq sqB (.num 3) none none (some half) none = .ok T ∧ T.call 7 [1, 1] = .ok (u', T, false) ∧ Raised sq (.polygon half) [1, 1] u' (3 / 8) ∧
    volume sq [1, 1] u' = 3 := by
  obtain ⟨T, hT⟩ : ∃ T, inflow sq sqB (.num 3) none none (some half) none = .ok T := ok_map half_accepted
  obtain ⟨u', h1, h2, h3⟩ := C84_inflow (A := .polygon half) ⟨rfl, rfl, rfl⟩ hT (by simp) 7 3 rfl (u := [1, 1]) rfl
  rw [half_tris] at h2
  exact ⟨T, u', hT, h1, h2, h3⟩

/-- Rain of 2 mm/s within a circle. -/
example : ∃ T u', rainfall sq sqB (.fn fun t => .val (2 * t)) (some ⟨2, 2⟩) (some 1) none none = .ok T ∧ T.call 1 [0, 0] = .ok (u', T, false) ∧
    Raised sq (.circle ⟨2, 2⟩ 1) [0, 0] u' (2 * 1 / 1000) := by
  obtain ⟨T, hT⟩ : ∃ T, rainfall sq sqB (.fn fun t => .val (2 * t)) (some ⟨2, 2⟩) (some 1) none none = .ok T := ok_map circle_accepted
  obtain ⟨u', h1, h2, -⟩ := (C84_rain (A := .circle ⟨2, 2⟩ 1) ⟨rfl, rfl, rfl⟩ hT 1 (u := [0, 0]) rfl).1 (2 * 1) rfl
  exact ⟨T, u', hT, h1, h2⟩

/-- **C84, a limit of the code.** With flow data that end, the same number given as rate and as default rate means different flows: 3 m³/s while there are data, and
after that 3 m/s on 8 m², that is 24 m³/s. -/
theorem C84_default_differs : ∃ T, inflow sq sqB (.fn fun t => if t < 10 then .val 3 else .late) none none (some half) (some fun _ => 3) = .ok T ∧
    (∃ u' T' w, T.call 9 [0, 0] = .ok (u', T', w) ∧ volume sq [0, 0] u' = 3) ∧ (∃ u' T' w, T.call 11 [0, 0] = .ok (u', T', w) ∧ volume sq [0, 0] u' = 24) := by
  obtain ⟨T, hT⟩ : ∃ T, inflow sq sqB (.fn fun t => if t < 10 then .val 3 else .late) none none (some half) (some fun _ => 3) = .ok T := ok_map half_accepted
  refine ⟨T, hT, ?_, ?_⟩
  · obtain ⟨u', h1, -, h3⟩ := C84_inflow (A := .polygon half) ⟨rfl, rfl, rfl⟩ hT (by simp) 9 3 (by norm_num [Rate.eval]) (u := [0, 0]) rfl
    exact ⟨u', _, _, h1, h3⟩
  · obtain ⟨u', T', w, h1, -, h3⟩ := (C84_default (A := .polygon half) ⟨rfl, rfl, rfl⟩ hT 11 (u := [0, 0]) rfl).2.2 (fun _ => 3) (by norm_num [Rate.eval]) rfl
    rw [half_tris] at h3
    exact ⟨u', T', w, h1, by rw [h3]; norm_num⟩

theorem sq_valid : sq.Valid := by
  refine ⟨?_, by simp [sq], fun b => if b = (0, 0) then (1, 1) else (0, 0), ?_⟩
  · intro k i h
    simp only [sq, List.mem_cons, Prod.mk.injEq, List.not_mem_nil, or_false] at h
    rcases h with ⟨rfl, rfl⟩ | ⟨rfl, rfl⟩ | ⟨rfl, rfl⟩ | ⟨rfl, rfl⟩ <;> simp [sq]
  · intro k i hk hi h
    have hk : k < 2 := hk
    interval_cases k <;> interval_cases i <;> first
      | (simp [sq] at h; done)
      | (refine ⟨by simp [sq], by simp, by simp [sq], by simp, ?_⟩; rintro p q ⟨rfl, rfl⟩; constructor <;> rfl)

theorem sq_bd (a b : Pt ℝ) : sq.Bd a b ↔ (a, b) ∈ [((⟨0, 4⟩ : Pt ℝ), (⟨0, 0⟩ : Pt ℝ)), (⟨0, 0⟩, ⟨4, 0⟩), (⟨4, 4⟩, ⟨0, 4⟩), (⟨4, 0⟩, ⟨4, 4⟩)] := by
  rw [← Loop.mem_segs sq_valid]
  rfl

theorem sq_simple : sq.Simple := by
  have hn : (sq.boundary.map fun b => sq.corner b.1 ((b.2 + 1) % 3)).Nodup := by
    show [(⟨0, 4⟩ : Pt ℝ), ⟨0, 0⟩, ⟨4, 4⟩, ⟨4, 0⟩].Nodup
    norm_num
  rintro k i k' i' p q q' h1 h2 ⟨rfl, -⟩ ⟨e, -⟩
  exact List.inj_on_of_nodup_map hn h1 h2 e

theorem sq_one : sq.OneLoop := by
  have r1 := Relation.ReflTransGen.single ((sq_bd ⟨0, 0⟩ ⟨4, 0⟩).mpr (by simp))
  have r2 := Relation.ReflTransGen.single ((sq_bd ⟨4, 0⟩ ⟨4, 4⟩).mpr (by simp))
  have r3 := Relation.ReflTransGen.single ((sq_bd ⟨4, 4⟩ ⟨0, 4⟩).mpr (by simp))
  have r4 := Relation.ReflTransGen.single ((sq_bd ⟨0, 4⟩ ⟨0, 0⟩).mpr (by simp))
  have to0 : ∀ p q, sq.Bd p q → Relation.ReflTransGen sq.Bd p ⟨0, 0⟩ ∧ Relation.ReflTransGen sq.Bd ⟨0, 0⟩ p := by
    intro p q h
    rw [sq_bd] at h
    simp only [List.mem_cons, List.not_mem_nil, or_false, Prod.mk.injEq] at h
    rcases h with ⟨rfl, -⟩ | ⟨rfl, -⟩ | ⟨rfl, -⟩ | ⟨rfl, -⟩
    · exact ⟨r4, (r1.trans r2).trans r3⟩
    · exact ⟨.refl, .refl⟩
    · exact ⟨r3.trans r4, r1.trans r2⟩
    · exact ⟨(r2.trans r3).trans r4, r1⟩
  intro p q p' q' h h'
  exact (to0 p q h).1.trans (to0 p' q' h').2

theorem sq_closed : Loop.Closed sq.Bd sqB := by
  intro j hj
  have h4 : j < 4 := hj
  have e : j = 0 ∨ j = 1 ∨ j = 2 ∨ j = 3 := by omega
  rcases e with rfl | rfl | rfl | rfl <;> rw [sq_bd] <;> simp [sqB]

/-- The hypotheses of `C84_whole_one_loop` can be met. -/
example : ∃ T u', inflow sq sqB (.num 5) none none none none = .ok T ∧ T.call 0 [0, 0] = .ok (u', T, false) ∧ volume sq [0, 0] u' = 5 := by
  obtain ⟨T, hT⟩ : ∃ T, inflow sq sqB (.num 5) none none none none = .ok T := by
    unfold inflow build
    simp [indices, circleOutside, sqB_area, Except.map]
  obtain ⟨u', h1, h2⟩ := C84_whole_one_loop sq_valid sq_simple sq_ccw sq_one (by norm_num [sqB]) sq_closed (by simp [sqB]) hT 0 5 rfl (u := [0, 0]) rfl
  exact ⟨T, u', hT, h1, h2⟩

/-- The ring between two squares, as two rings of triangles would give: here the square of side 12 with a square hole of side 4. -/
noncomputable def ring8 : Loop.Mesh ℝ := ⟨8, fun k j => ([[⟨0, 0⟩, ⟨12, 0⟩, ⟨8, 4⟩], [⟨0, 0⟩, ⟨8, 4⟩, ⟨4, 4⟩], [⟨12, 0⟩, ⟨12, 12⟩, ⟨8, 8⟩], [⟨12, 0⟩, ⟨8, 8⟩, ⟨8, 4⟩],
  [⟨12, 12⟩, ⟨0, 12⟩, ⟨4, 8⟩], [⟨12, 12⟩, ⟨4, 8⟩, ⟨8, 8⟩], [⟨0, 12⟩, ⟨0, 0⟩, ⟨4, 4⟩], [⟨0, 12⟩, ⟨4, 4⟩, ⟨4, 8⟩]].getD k []).getD j ⟨0, 0⟩,
  [(0, 2), (1, 0), (2, 2), (3, 0), (4, 2), (5, 0), (6, 2), (7, 0)]⟩

/-- Its outer boundary. -/
noncomputable def ringB : List (Pt ℝ) := [⟨0, 0⟩, ⟨12, 0⟩, ⟨12, 12⟩, ⟨0, 12⟩]

/-- **C84, a limit of the code.** On a mesh with a hole an inflow of 9 m³/s over the whole mesh brings in only 8 m³/s. -/
theorem C84_hole : ring8.Ccw ∧ Loop.Closed ring8.Bd ringB ∧ ∃ T u', inflow ring8 ringB (.num 9) none none none none = .ok T ∧
    T.call 0 [0, 0, 0, 0, 0, 0, 0, 0] = .ok (u', T, false) ∧ volume ring8 [0, 0, 0, 0, 0, 0, 0, 0] u' = 8 := by
  have hB : Polygon.polygonArea ringB = 144 := by
    rw [Polygon.area_sumE ⟨0, 0⟩]
    norm_num [ringB, Polygon.sumE, Polygon.edges, Polygon.twoTri]
  have hA : ring8.area = 128 := by
    unfold Loop.Mesh.area
    rw [show ring8.n = 8 from rfl]
    norm_num [Finset.sum_range_succ, ring8, Polygon.twoTri]
  refine ⟨?_, ?_, ?_⟩
  · intro k hk
    have : k < 8 := hk
    interval_cases k <;> norm_num [ring8, Polygon.twoTri]
  · intro j hj
    have h4 : j < 4 := hj
    have e : j = 0 ∨ j = 1 ∨ j = 2 ∨ j = 3 := by omega
    rcases e with rfl | rfl | rfl | rfl
    · exact ⟨0, 2, by simp [ring8], rfl, rfl⟩
    · exact ⟨2, 2, by simp [ring8], rfl, rfl⟩
    · exact ⟨4, 2, by simp [ring8], rfl, rfl⟩
    · exact ⟨6, 2, by simp [ring8], rfl, rfl⟩
  · obtain ⟨T, hT⟩ : ∃ T, inflow ring8 ringB (.num 9) none none none none = .ok T := by
      unfold inflow build
      simp [indices, circleOutside, hB, Except.map]
    obtain ⟨u', h1, -, h3⟩ := C84_whole hT 0 9 rfl (u := [0, 0, 0, 0, 0, 0, 0, 0]) rfl
    exact ⟨T, u', hT, h1, by rw [h3, hA, hB]; norm_num⟩

end Verif.Forcing
