import Verif.Gen.LemmasRun

/-! # C89: the outline made by `create_mesh_from_regions` -/

set_option linter.unusedSectionVars false

namespace Verif.Gen

open Verif.Polygon (Pt)
open Verif.GeoRef (Ref)

variable {K : Type*} [Field K] [LinearOrder K] [IsStrictOrderedRing K]

/-- The stages of a successful run. -/
theorem createOutline_stages {sq : K → K} {rounds : ℕ} {a : Args K} {o : Outline K} (h : createOutline sq rounds a = .ok o) :
    ∃ ref o0 o1 o2 o3 p, meshRef a = .ok ref ∧ addBreaklines a.breaklines (Outline.empty ref) = .ok o0 ∧
      addArea sq rounds o0 a.bounding a.tags a.polyRef .plain none = .ok o1 ∧
      pointInPolygon sq (absolute a.polyRef a.bounding) rounds (1 / 10 ^ 8) = some p ∧
      addRegions sq rounds a.polyRef (inner sq a) (addRegionPts o1 [(p, a.maxArea)]) = .ok o2 ∧
      addHoles sq rounds a.polyRef a.holeTags 0 (a.holes.getD []) o2 = .ok o3 ∧
      o = addRegionPts o3 ((a.regionPts.getD []).map fun r => (r.1, some r.2)) := by
  unfold createOutline at h
  split at h
  swap
  · simp at h
  split at h
  · simp at h
  next inn hin =>
  have := keepRegions_ok hin
  subst this
  split at h
  swap
  · simp at h
  split at h
  · simp at h
  next ref href =>
  split at h
  · simp at h
  next o0 h0 =>
  split at h
  · simp at h
  next o1 h1 =>
  split at h
  · simp at h
  next p hp =>
  split at h
  · simp at h
  next o2 h2 =>
  split at h
  · simp at h
  next o3 h3 =>
  simp only [Except.ok.injEq] at h
  exact ⟨ref, o0, o1, o2, o3, p, href, h0, h1, hp, h2, h3, h.symm⟩

/-- **C89.** The segments given to the mesh generator are, in absolute coordinates: the pieces of the breaklines without tag, the sides of the
bounding polygon with the tags of the dictionary (none where no tag is given), the sides of the contained interior regions without tag, and
the sides of the holes with the tags of their dictionaries (`interior` where none is given). -/
theorem C89_segments {sq : K → K} {rounds : ℕ} {a : Args K} {o : Outline K} (hg : Honest a.polyRef) (h : createOutline sq rounds a = .ok o) :
    ∃ (bt : List String) (ts : List (List String)), TagsOf (a.tags.getD []) a.bounding.length "" bt ∧ ts.length = (a.holes.getD []).length ∧
      (∀ (k : ℕ) hole t, (a.holes.getD [])[k]? = some hole → ts[k]? = some t → TagsOf (tagsOfHole a k) hole.length "interior" t) ∧
      o.picture = ((a.breaklines.getD []).flatMap pieces).map (fun s => ((some s.1, some s.2), "")) ++
        drawn (sides (places a.polyRef a.bounding)) bt ++
        (inner sq a).flatMap (fun r => drawn (sides (places a.polyRef r.1)) (List.replicate r.1.length "")) ++
        (List.zipWith (fun hole t => drawn (sides (places a.polyRef hole)) t) (a.holes.getD []) ts).flatten := by
  obtain ⟨ref, o0, o1, o2, o3, p, href, h0, h1, hp, h2, h3, rfl⟩ := createOutline_stages h
  have we : (Outline.empty ref : Outline K).WF := by intro s hs; simp [Outline.empty] at hs
  obtain ⟨o0', e0, w0, r0, hh0, rg0, p0⟩ := addBreaklines_ok (b := a.breaklines) we
  rw [h0] at e0
  simp only [Except.ok.injEq] at e0
  subst e0
  obtain ⟨bt, ht, w1, r1, p1, -, -, -⟩ := addArea_ok hg w0 h1
  obtain ⟨a1, a2, a3, a4, a5⟩ := addRegionPts_spec o1 [(p, a.maxArea)]
  obtain ⟨w2, r2, hh2, p2, -⟩ := addRegions_ok hg (a5 w1) h2
  obtain ⟨w3, r3, rg3, ⟨ts, hl, htt, p3⟩, -⟩ := addHoles_ok hg w2 h3
  refine ⟨bt, ts, by simpa using ht, hl, ?_, ?_⟩
  · intro k hole t hk htk
    have := htt k hole t hk htk
    rwa [Nat.zero_add] at this
  · rw [(addRegionPts_spec o3 _).2.1, p3, p2, a2, p1, p0]
    simp [Outline.picture, Outline.empty]

/-- **C89.** Resolutions: a point strictly inside the bounding polygon carries the overall maximal area, a point strictly inside each
contained interior region with a resolution carries that resolution, and the user's own region points follow; each hole has a point strictly
inside. -/
theorem C89_regions {sq : K → K} {rounds : ℕ} {a : Args K} {o : Outline K} (hg : Honest a.polyRef) (h : createOutline sq rounds a = .ok o) :
    (∃ (p : Pt K) (ps : List (Pt K)), Inside sq (places a.polyRef a.bounding) p ∧
        List.Forall₂ (fun r q => Inside sq (places a.polyRef r.1) q) ((inner sq a).filter fun r => r.2.isSome) ps ∧
        o.regionPlaces = (p, "", a.maxArea) :: List.zipWith (fun r q => (q, "", r.2)) ((inner sq a).filter fun r => r.2.isSome) ps ++
          (a.regionPts.getD []).map (fun r => (r.1, "", some r.2))) ∧
      List.Forall₂ (fun hole q => Inside sq (places a.polyRef hole) q) (a.holes.getD []) o.holePlaces := by
  obtain ⟨ref, o0, o1, o2, o3, p, href, h0, h1, hp, h2, h3, rfl⟩ := createOutline_stages h
  have we : (Outline.empty ref : Outline K).WF := by intro s hs; simp [Outline.empty] at hs
  obtain ⟨o0', e0, w0, r0, hh0, rg0, p0⟩ := addBreaklines_ok (b := a.breaklines) we
  rw [h0] at e0
  simp only [Except.ok.injEq] at e0
  subst e0
  obtain ⟨bt, ht, w1, r1, p1, c1, -, -⟩ := addArea_ok hg w0 h1
  obtain ⟨c2, c3⟩ := c1 rfl
  obtain ⟨a1, a2, a3, a4, a5⟩ := addRegionPts_spec o1 [(p, a.maxArea)]
  obtain ⟨w2, r2, hh2, p2, ps, f2, g2⟩ := addRegions_ok hg (a5 w1) h2
  obtain ⟨w3, r3, rg3, -, qs, f3, g3⟩ := addHoles_ok hg w2 h3
  obtain ⟨b1, b2, b3, b4, b5⟩ := addRegionPts_spec o3 ((a.regionPts.getD []).map fun r => (r.1, some r.2))
  rw [absolute_places hg] at hp
  have er : o0.regionPlaces = [] := by unfold Outline.regionPlaces; rw [rg0]; rfl
  have eh : o0.holePlaces = [] := by unfold Outline.holePlaces; rw [hh0]; rfl
  refine ⟨⟨p, ps, pointInPolygon_inside hp, f2, ?_⟩, ?_⟩
  · rw [b4, rg3, g2, a4, c2, er, List.map_map]
    rfl
  · have e1 : (addRegionPts o3 ((a.regionPts.getD []).map fun r => (r.1, some r.2))).holePlaces = o3.holePlaces := by
      unfold Outline.holePlaces; rw [b3, b1]
    have e2 : (addRegionPts o1 [(p, a.maxArea)]).holePlaces = o1.holePlaces := by
      unfold Outline.holePlaces; rw [a3, a1]
    rw [e1, g3, hh2, e2, c3, eh, List.nil_append]
    exact f3

/-- **C89.** The outline is relative to the reference that was asked for, or to the lower left corner of the bounding polygon. -/
theorem C89_reference {sq : K → K} {rounds : ℕ} {a : Args K} {o : Outline K} (hg : Honest a.polyRef) (h : createOutline sq rounds a = .ok o) :
    (∀ g, a.meshRef = some g → o.ref = g) ∧
      (a.meshRef = none → (∀ q ∈ places a.polyRef a.bounding, o.ref.x ≤ q.x ∧ o.ref.y ≤ q.y) ∧
        (∃ q ∈ places a.polyRef a.bounding, q.x = o.ref.x) ∧ (∃ q ∈ places a.polyRef a.bounding, q.y = o.ref.y) ∧
        (∀ g, a.polyRef = some g → o.ref.zone = g.zone)) := by
  obtain ⟨ref, o0, o1, o2, o3, p, href, h0, h1, hp, h2, h3, rfl⟩ := createOutline_stages h
  have we : (Outline.empty ref : Outline K).WF := by intro s hs; simp [Outline.empty] at hs
  obtain ⟨o0', e0, w0, r0, -⟩ := addBreaklines_ok (b := a.breaklines) we
  rw [h0] at e0
  simp only [Except.ok.injEq] at e0
  subst e0
  obtain ⟨bt, ht, w1, r1, -⟩ := addArea_ok hg w0 h1
  obtain ⟨a1, a2, a3, a4, a5⟩ := addRegionPts_spec o1 [(p, a.maxArea)]
  obtain ⟨w2, r2, -⟩ := addRegions_ok hg (a5 w1) h2
  obtain ⟨w3, r3, -⟩ := addHoles_ok hg w2 h3
  have hr : (addRegionPts o3 ((a.regionPts.getD []).map fun r => (r.1, some r.2))).ref = ref := by
    rw [(addRegionPts_spec o3 _).1, r3, r2, a1, r1, r0]
    rfl
  rw [hr]
  have fold : ∀ (l : List K) (c : K), (l.foldl min c ≤ c ∧ ∀ d ∈ l, l.foldl min c ≤ d) ∧ (l.foldl min c = c ∨ l.foldl min c ∈ l) := by
    intro l
    induction l with
    | nil => intro c; simp
    | cons d l ih =>
      intro c
      obtain ⟨⟨i1, i2⟩, i3⟩ := ih (min c d)
      refine ⟨⟨i1.trans (min_le_left _ _), ?_⟩, ?_⟩
      · intro e he
        rcases List.mem_cons.1 he with rfl | he
        · exact i1.trans (min_le_right _ _)
        · exact i2 e he
      · rw [List.foldl_cons]
        rcases i3 with i3 | i3
        · rcases min_choice c d with hc | hc
          · left; rw [i3, hc]
          · right; rw [i3, hc]; exact List.mem_cons_self
        · right; exact List.mem_cons_of_mem _ i3
  constructor
  · intro g hgm
    unfold meshRef at href
    rw [hgm] at href
    simpa using href.symm
  · intro hm
    unfold meshRef at href
    rw [hm] at href
    simp only at href
    cases hb : a.bounding with
    | nil => simp [hb, minOf] at href
    | cons v vs =>
      simp only [hb, List.map_cons, minOf, absolute_places hg] at href
      obtain ⟨⟨m1, m2⟩, m3⟩ := fold (vs.map (·.x)) v.x
      obtain ⟨⟨n1, n2⟩, n3⟩ := fold (vs.map (·.y)) v.y
      generalize (vs.map (·.x)).foldl min v.x = mx at *
      generalize (vs.map (·.y)).foldl min v.y = my at *
      have lx : ∀ q ∈ v :: vs, mx ≤ q.x := by
        intro q hq
        rcases List.mem_cons.1 hq with rfl | hq
        · exact m1
        · exact m2 _ (List.mem_map.2 ⟨q, hq, rfl⟩)
      have ly : ∀ q ∈ v :: vs, my ≤ q.y := by
        intro q hq
        rcases List.mem_cons.1 hq with rfl | hq
        · exact n1
        · exact n2 _ (List.mem_map.2 ⟨q, hq, rfl⟩)
      have ex : ∃ q ∈ v :: vs, q.x = mx := by
        rcases m3 with e | e
        · exact ⟨v, List.mem_cons_self, e.symm⟩
        · obtain ⟨q, hq, e⟩ := List.mem_map.1 e
          exact ⟨q, List.mem_cons_of_mem _ hq, e⟩
      have ey : ∃ q ∈ v :: vs, q.y = my := by
        rcases n3 with e | e
        · exact ⟨v, List.mem_cons_self, e.symm⟩
        · obtain ⟨q, hq, e⟩ := List.mem_map.1 e
          exact ⟨q, List.mem_cons_of_mem _ hq, e⟩
      obtain ⟨qx, hqx, ex⟩ := ex
      obtain ⟨qy, hqy, ey⟩ := ey
      cases hp' : a.polyRef with
      | none =>
        simp only [hp', places, GeoRef.make, GeoRef.defaultZone, true_or, if_true, Except.ok.injEq] at href
        subst href
        exact ⟨fun q hq => ⟨lx q hq, ly q hq⟩, ⟨qx, hqx, ex⟩, ⟨qy, hqy, ey⟩, by simp⟩
      | some g =>
        simp only [hp', places, List.map_cons, List.map_nil, GeoRef.make] at href
        by_cases hz : g.zone = -1 ∨ g.zone ≥ 1 ∧ g.zone ≤ 60
        · simp only [if_pos hz, Except.ok.injEq] at href
          subst href
          refine ⟨?_, ⟨shift g.x g.y qx, List.mem_map.2 ⟨qx, hqx, rfl⟩, ?_⟩, ⟨shift g.x g.y qy, List.mem_map.2 ⟨qy, hqy, rfl⟩, ?_⟩, by simp⟩
          · intro q hq
            obtain ⟨q', hq', rfl⟩ := List.mem_map.1 hq
            have := lx q' hq'
            have := ly q' hq'
            simp only [shift]
            constructor <;> linarith
          · simp only [shift]; rw [ex]
          · simp only [shift]; rw [ey]
        · simp [if_neg hz] at href

/-- **C89.** Exactly the acceptable inputs are accepted. -/
theorem C89_accepts {sq : K → K} {rounds : ℕ} {a : Args K} (hg : Honest a.polyRef) :
    (∃ o, createOutline sq rounds a = .ok o) ↔ Acceptable sq rounds a := by
  constructor
  · rintro ⟨o, h⟩
    have hst := createOutline_stages h
    unfold createOutline at h
    split at h
    swap
    · simp at h
    split at h
    · simp at h
    next inn hin =>
    split at h
    swap
    · simp at h
    next hh =>
    clear h
    obtain ⟨ref, o0, o1, o2, o3, p, href, h0, h1, hp, h2, h3, -⟩ := hst
    have b1 := (addArea_isOk hg).1 ⟨_, h1⟩
    have b2 := (addRegions_isOk hg).1 ⟨_, h2⟩
    have b3 := (addHoles_isOk hg).1 ⟨_, h3⟩
    simp only [Nat.zero_add] at b3
    rw [absolute_places hg] at hp
    have hreach := reachable_iff.1 ⟨p, hp⟩
    have hb : a.bounding ≠ [] := by
      obtain ⟨k, _, q, ⟨v, hv, _⟩, _⟩ := hreach
      intro hn
      rw [hn] at hv
      unfold places at hv
      cases hpr : a.polyRef <;> rw [hpr] at hv <;> simp at hv
    exact ⟨b1.1, keepRegions_isOk.1 ⟨_, hin⟩, checkHoles_iff.1 hh, fun k h' hk => (b3 k h' hk).1, (meshRef_isOk hb).1 ⟨_, href⟩, b1.2.1,
      fun r hr => (b2 r hr).1, hreach, fun r hr => (b2 r hr).2, fun h' hh' => by
        obtain ⟨k, hk⟩ := List.getElem?_of_mem hh'
        exact (b3 k h' hk).2.2⟩
  · intro ha
    have hb : a.bounding ≠ [] := by
      obtain ⟨k, _, q, ⟨v, hv, _⟩, _⟩ := ha.reachable
      intro hn
      rw [hn] at hv
      unfold places at hv
      cases hpr : a.polyRef <;> rw [hpr] at hv <;> simp at hv
    obtain ⟨inn, hin⟩ := keepRegions_isOk.2 ha.contained
    have := keepRegions_ok hin
    subst this
    obtain ⟨ref, href⟩ := (meshRef_isOk hb).2 ha.zone
    have we : (Outline.empty ref : Outline K).WF := by intro s hs; simp [Outline.empty] at hs
    obtain ⟨o0, h0, w0, -⟩ := addBreaklines_ok (b := a.breaklines) we
    obtain ⟨o1, h1⟩ := (addArea_isOk (sq := sq) (rounds := rounds) (o := o0) (kind := .plain) (maxArea := none) hg).2
      ⟨ha.tags, ha.bounding, by simp⟩
    obtain ⟨p, hp⟩ := reachable_iff.2 ha.reachable
    rw [← absolute_places hg] at hp
    obtain ⟨o2, h2⟩ := (addRegions_isOk (o := addRegionPts o1 [(p, a.maxArea)]) hg).2 fun r hr => ⟨ha.single r hr, ha.inside r hr⟩
    obtain ⟨o3, h3⟩ := (addHoles_isOk (sq := sq) (rounds := rounds) (holeTags := a.holeTags) (n := 0) (o := o2) hg).2 fun k h' hk =>
      ⟨by rw [Nat.zero_add]; exact ha.holeTags k h' hk, by have := (ha.holes h' (List.mem_of_getElem? hk)).1; omega, ha.hole h' (List.mem_of_getElem? hk)⟩
    have hc : checkTags a.tags a.bounding.length = true := by
      rw [checkTags_iff]
      intro e he i hi
      obtain ⟨j, hj⟩ := ha.tags e he i hi
      unfold Means at hj
      omega
    exact ⟨_, by unfold createOutline; simp only [hc, if_true, hin, checkHoles_iff.2 ha.holes, href, h0, h1, hp, h2, h3]; rfl⟩

/-- **C89.** A tag for a side that does not exist is reported as such, before anything else. -/
theorem C89_rejects_tag {sq : K → K} {rounds : ℕ} {a : Args K} {e : String × List ℤ} {i : ℤ} (he : e ∈ a.tags.getD []) (hi : i ∈ e.2)
    (h : (a.bounding.length : ℤ) ≤ i) : createOutline sq rounds a = .error .segment := by
  unfold createOutline
  rw [if_neg]
  rw [checkTags_iff]
  intro hall
  have := hall e he i hi
  omega

/-- **C89.** A region outside the bounding polygon is reported, unless such regions shall be left out; a hole outside always is. -/
theorem C89_rejects_polygon {sq : K → K} {rounds : ℕ} {a : Args K} (ht : ∀ e ∈ a.tags.getD [], ∀ i ∈ e.2, i < a.bounding.length)
    (h : (a.failOutside = true ∧ ∃ r ∈ a.interior.getD [], ¬ Contained sq a.bounding r.1) ∨
      ∃ hole ∈ a.holes.getD [], hole.length < 3 ∨ ¬ Contained sq a.bounding hole) : createOutline sq rounds a = .error .polygon := by
  unfold createOutline
  rw [if_pos (checkTags_iff.2 ht)]
  have hk : ∀ e, keepRegions sq a = .error e → e = .polygon := by
    intro e he
    unfold keepRegions at he
    split at he
    · simp at he
    · split at he
      · simpa using he.symm
      · simp at he
  cases hkr : keepRegions sq a with
  | error e => rw [hk e hkr]
  | ok l =>
    simp only
    rw [if_neg]
    rw [checkHoles_iff]
    intro hall
    rcases h with ⟨h1, r, hr, h2⟩ | ⟨hole, hh, h2⟩
    · exact h2 (keepRegions_isOk.1 ⟨l, hkr⟩ h1 r hr)
    · obtain ⟨h3, h4⟩ := hall hole hh
      rcases h2 with h2 | h2
      · omega
      · exact h2 h4

/-- **C89.** The point returned by `point_in_polygon` is strictly inside and next to a corner. -/
theorem C89_point {sq : K → K} {rounds : ℕ} {poly : List (Pt K)} {delta : K} {p : Pt K} (hd : 0 ≤ delta)
    (h : pointInPolygon sq poly rounds delta = some p) : Inside sq poly p ∧
      ∃ v ∈ poly, |p.x - v.x| ≤ delta * (if v.x = 0 then 1 else |v.x|) ∧ |p.y - v.y| ≤ delta * (if v.y = 0 then 1 else |v.y|) := by
  obtain ⟨k, hk, ⟨v, hv, mx, my, hx, hy, rfl⟩, hin⟩ := pointInPolygon_near h
  have key : ∀ (m c : K), (m = -1 ∨ m = 0 ∨ m = 1) → |c + m * (delta / 10 ^ k) * (if c = 0 then 1 else c) - c| ≤ delta * (if c = 0 then 1 else |c|) := by
    intro m c hm
    have hm' : |m| ≤ 1 := by rcases hm with rfl | rfl | rfl <;> simp
    have hd' : |delta / 10 ^ k| ≤ delta := by
      rw [abs_of_nonneg (by positivity)]
      exact div_le_self hd (one_le_pow₀ (by norm_num))
    have : |(if c = 0 then (1 : K) else c)| = if c = 0 then 1 else |c| := by split <;> simp
    rw [add_sub_cancel_left, abs_mul, abs_mul, this]
    have h2 : (0 : K) ≤ if c = 0 then 1 else |c| := by rw [← this]; exact abs_nonneg _
    have h3 : |m| * |delta / 10 ^ k| ≤ 1 * delta := mul_le_mul hm' hd' (abs_nonneg _) (by norm_num)
    rw [one_mul] at h3
    exact mul_le_mul_of_nonneg_right h3 h2
  exact ⟨hin, v, hv, key mx v.x hx, key my v.y hy⟩

end Verif.Gen
