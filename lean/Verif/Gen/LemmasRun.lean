import Verif.Gen.Lemmas
import Verif.Polygon.Props

/-! Lemmas about the loops and the whole of `create_mesh_from_regions`. -/

set_option linter.unusedSectionVars false

namespace Verif.Gen

open Verif.Polygon (Pt)
open Verif.GeoRef (Ref)

variable {K : Type*} [Field K] [LinearOrder K] [IsStrictOrderedRing K]

theorem within_iff (sq : K → K) (bounding poly : List (Pt K)) : within sq bounding poly = true ↔ Contained sq bounding poly := by
  unfold within Contained
  rw [beq_iff_eq, Polygon.separate_in]
  constructor
  · intro h p hp
    have hall := List.length_filter_eq_length_iff.1 (h.trans (List.length_range).symm)
    obtain ⟨k, hk, rfl⟩ := List.getElem_of_mem hp
    have := hall k (List.mem_range.2 hk)
    rw [Polygon.isInside_eq]
    simpa [Polygon.flagAt, List.getElem?_eq_getElem hk] using this
  · intro h
    conv_rhs => rw [← List.length_range (n := poly.length)]
    rw [List.length_filter_eq_length_iff]
    intro k hk
    have hk := List.mem_range.1 hk
    have := h _ (List.getElem_mem hk)
    rw [Polygon.isInside_eq] at this
    simpa [Polygon.flagAt, List.getElem?_eq_getElem hk] using this

theorem keepRegions_ok {sq : K → K} {a : Args K} {l : List (List (Pt K) × Option K)} (h : keepRegions sq a = .ok l) : l = inner sq a := by
  unfold keepRegions at h
  unfold inner
  cases ha : a.interior with
  | none => simp only [ha, Except.ok.injEq] at h; subst h; rfl
  | some m =>
    simp only [ha] at h
    split at h
    · simp at h
    · simp only [Except.ok.injEq] at h
      subst h
      rw [Option.getD_some]
      apply List.filter_congr
      intro r _
      rw [Bool.eq_iff_iff, within_iff]
      simp

theorem places_length (g : Option (Ref K)) (ps : List (Pt K)) : (places g ps).length = ps.length := by
  unfold places
  cases g <;> simp

theorem tagsOf_nil {n : ℕ} {d : String} {l : List String} (h : TagsOf [] n d l) : l = List.replicate n d := by
  obtain ⟨h1, h2⟩ := h
  rw [List.eq_replicate_iff]
  refine ⟨h1, fun t ht => ?_⟩
  obtain ⟨j, hj, rfl⟩ := List.getElem_of_mem ht
  rcases h2 j _ (List.getElem?_eq_getElem hj) with ⟨A, i, B, e, _⟩ | ⟨_, e⟩
  · simp at e
  · exact e

theorem addRegions_ok {sq : K → K} {rounds : ℕ} {g : Option (Ref K)} (hg : Honest g) : ∀ {l : List (List (Pt K) × Option K)} {o o' : Outline K},
    o.WF → addRegions sq rounds g l o = .ok o' → o'.WF ∧ o'.ref = o.ref ∧ o'.holePlaces = o.holePlaces ∧
      o'.picture = o.picture ++ l.flatMap (fun r => drawn (sides (places g r.1)) (List.replicate r.1.length "")) ∧
      ∃ ps : List (Pt K), List.Forall₂ (fun r p => Inside sq (places g r.1) p) (l.filter fun r => r.2.isSome) ps ∧
        o'.regionPlaces = o.regionPlaces ++ List.zipWith (fun r p => (p, "", r.2)) (l.filter fun r => r.2.isSome) ps := by
  intro l
  induction l with
  | nil =>
    intro o o' hw h
    simp only [addRegions, Except.ok.injEq] at h
    subst h
    exact ⟨hw, rfl, rfl, by simp, [], by simp, by simp⟩
  | cons r rest ih =>
    intro o o' hw h
    obtain ⟨poly, res⟩ := r
    simp only [addRegions] at h
    split at h
    · next o1 h1 =>
      obtain ⟨tl, ht, w1, r1, p1, c1, c2, -⟩ := addArea_ok hg hw h1
      obtain ⟨w2, r2, hh2, p2, ps, f2, e2⟩ := ih w1 h
      have hk : (if (if res.isSome = true then Kind.region else Kind.plain) = Kind.hole then "interior" else "") = "" := by
        cases res <;> simp
      rw [hk] at ht
      have ht' := tagsOf_nil ht
      subst ht'
      cases res with
      | none =>
        obtain ⟨e3, e4⟩ := c1 rfl
        refine ⟨w2, r2.trans r1, hh2.trans e4, ?_, ps, by simpa using f2, ?_⟩
        · rw [p2, p1, List.flatMap_cons, List.append_assoc]
        · rw [e2, e3]; simp
      | some z =>
        obtain ⟨p, e3, e4, e5⟩ := c2 rfl
        refine ⟨w2, r2.trans r1, hh2.trans e5, ?_, p :: ps, ?_, ?_⟩
        · rw [p2, p1, List.flatMap_cons, List.append_assoc]
        · simp only [Option.isSome_some, List.filter_cons_of_pos]
          exact List.Forall₂.cons e3 f2
        · rw [e2, e4]; simp
    · simp at h

theorem addHoles_ok {sq : K → K} {rounds : ℕ} {g : Option (Ref K)} {holeTags : Option (List Tags)} (hg : Honest g) :
    ∀ {l : List (List (Pt K))} {n : ℕ} {o o' : Outline K}, o.WF → addHoles sq rounds g holeTags n l o = .ok o' →
      o'.WF ∧ o'.ref = o.ref ∧ o'.regionPlaces = o.regionPlaces ∧
      (∃ ts : List (List String), ts.length = l.length ∧ (∀ (k : ℕ) h t, l[k]? = some h → ts[k]? = some t →
          TagsOf (((holeTags.getD [])[n + k]?).getD []) h.length "interior" t) ∧
        o'.picture = o.picture ++ (List.zipWith (fun h t => drawn (sides (places g h)) t) l ts).flatten) ∧
      ∃ ps : List (Pt K), List.Forall₂ (fun h p => Inside sq (places g h) p) l ps ∧ o'.holePlaces = o.holePlaces ++ ps := by
  intro l
  induction l with
  | nil =>
    intro n o o' hw h
    simp only [addHoles, Except.ok.injEq] at h
    subst h
    exact ⟨hw, rfl, rfl, ⟨[], rfl, by simp, by simp⟩, [], by simp, by simp⟩
  | cons poly rest ih =>
    intro n o o' hw h
    simp only [addHoles] at h
    split at h
    · next o1 h1 =>
      obtain ⟨tl, ht, w1, r1, p1, -, -, c3⟩ := addArea_ok hg hw h1
      obtain ⟨p, e3, e4, e5⟩ := c3 rfl
      obtain ⟨w2, r2, rg2, ⟨ts, l2, t2, p2⟩, ps, f2, e2⟩ := ih w1 h
      refine ⟨w2, r2.trans r1, rg2.trans e4, ⟨tl :: ts, by simp [l2], ?_, ?_⟩, p :: ps, List.Forall₂.cons e3 f2, ?_⟩
      · intro k h' t hk htk
        cases k with
        | zero =>
          simp only [List.getElem?_cons_zero, Option.some.injEq] at hk htk
          subst hk; subst htk
          simpa using ht
        | succ k =>
          simp only [List.getElem?_cons_succ] at hk htk
          have := t2 k h' t hk htk
          rwa [show n + 1 + k = n + (k + 1) by omega] at this
      · rw [p2, p1, List.zipWith_cons_cons, List.flatten_cons, List.append_assoc]
      · rw [e2, e5, List.append_assoc]; rfl
    · simp at h

/-! ### Acceptance -/

theorem mem_candidates {delta : K} {v p : Pt K} : p ∈ candidates delta v ↔ ∃ mx my : K, (mx = -1 ∨ mx = 0 ∨ mx = 1) ∧ (my = -1 ∨ my = 0 ∨ my = 1) ∧
    p = ⟨v.x + mx * delta * (if v.x = 0 then 1 else v.x), v.y + my * delta * (if v.y = 0 then 1 else v.y)⟩ := by
  unfold candidates
  simp only [List.mem_flatMap, List.mem_map, List.mem_cons, List.not_mem_nil, or_false]
  have e : ∀ (c m : K), (if c = 0 then m * delta else c + m * c * delta) = c + m * delta * (if c = 0 then 1 else c) := by
    intro c m
    split
    · next h => rw [h]; ring
    · ring
  constructor
  · rintro ⟨mx, hx, my, hy, rfl⟩
    exact ⟨mx, my, hx, hy, by rw [e, e]⟩
  · rintro ⟨mx, my, hx, hy, rfl⟩
    exact ⟨mx, hx, my, hy, by rw [e, e]⟩

theorem pointInPolygon_near {sq : K → K} {poly : List (Pt K)} {rounds : ℕ} : ∀ {delta : K} {p : Pt K},
    pointInPolygon sq poly rounds delta = some p → ∃ k < rounds, NextTo (delta / 10 ^ k) poly p ∧ Inside sq poly p := by
  induction rounds with
  | zero => intro delta p h; simp [pointInPolygon] at h
  | succ n ih =>
    intro delta p h
    simp only [pointInPolygon] at h
    split at h
    · next q hq =>
      simp only [Option.some.injEq] at h
      subst h
      obtain ⟨v, hv, hc⟩ := List.mem_flatMap.1 (List.mem_of_find?_eq_some hq)
      refine ⟨0, by omega, ⟨v, hv, ?_⟩, ?_⟩
      · simpa using mem_candidates.1 hc
      · simpa [Inside] using List.find?_some hq
    · obtain ⟨k, hk, h1, h2⟩ := ih h
      refine ⟨k + 1, by omega, ?_, h2⟩
      rwa [show delta / 10 ^ (k + 1) = delta * (1 / 10) / 10 ^ k by rw [pow_succ]; field_simp]

theorem pointInPolygon_isSome {sq : K → K} {poly : List (Pt K)} {rounds : ℕ} : ∀ {delta : K},
    (∃ k < rounds, ∃ p, NextTo (delta / 10 ^ k) poly p ∧ Inside sq poly p) → ∃ p, pointInPolygon sq poly rounds delta = some p := by
  induction rounds with
  | zero => rintro delta ⟨k, hk, _⟩; omega
  | succ n ih =>
    rintro delta ⟨k, hk, p, ⟨v, hv, hc⟩, hp⟩
    simp only [pointInPolygon]
    split
    · exact ⟨_, rfl⟩
    · next hnone =>
      cases k with
      | zero =>
        exfalso
        rw [List.find?_eq_none] at hnone
        refine hnone p (List.mem_flatMap.2 ⟨v, hv, mem_candidates.2 ?_⟩) ?_
        · simpa using hc
        · simpa [Inside] using hp
      | succ k =>
        refine ih ⟨k, by omega, p, ⟨v, hv, ?_⟩, hp⟩
        rwa [show delta / 10 ^ (k + 1) = delta * (1 / 10) / 10 ^ k by rw [pow_succ]; field_simp] at hc

theorem reachable_iff {sq : K → K} {poly : List (Pt K)} {rounds : ℕ} :
    (∃ p, pointInPolygon sq poly rounds (1 / 10 ^ 8) = some p) ↔ Reachable sq rounds poly := by
  have e : ∀ k : ℕ, (1 / 10 ^ 8 : K) / 10 ^ k = 1 / 10 ^ (8 + k) := by
    intro k
    rw [pow_add]
    field_simp
  constructor
  · rintro ⟨p, hp⟩
    obtain ⟨k, hk, h1, h2⟩ := pointInPolygon_near hp
    rw [e] at h1
    exact ⟨k, hk, p, h1, h2⟩
  · rintro ⟨k, hk, p, h1, h2⟩
    rw [← e] at h1
    exact pointInPolygon_isSome ⟨k, hk, p, h1, h2⟩

theorem addArea_isOk {sq : K → K} {rounds : ℕ} {o : Outline K} {poly : List (Pt K)} {tags : Option Tags} {g : Option (Ref K)} {kind : Kind}
    {maxArea : Option K} (hg : Honest g) : (∃ o', addArea sq rounds o poly tags g kind maxArea = .ok o') ↔
      (∀ e ∈ tags.getD [], ∀ i ∈ e.2, ∃ j, Means poly.length i j) ∧ poly.length ≠ 1 ∧ (kind ≠ .plain → Reachable sq rounds (places g poly)) := by
  unfold addArea
  simp only
  rw [absolute_places hg, ← places_length g poly, ← tagList_isOk (hole := kind == Kind.hole)]
  cases hl : tagList tags (places g poly).length (kind == .hole) with
  | error e => simp
  | ok l =>
    have hll : l.length = (places g poly).length := (tagList_spec hl).1
    have := addVertsSegs_ring_isOk (o := o) hll
    simp only [Except.ok.injEq, exists_eq', true_and]
    rw [← this, ← reachable_iff]
    cases ho : addVertsSegs o (places g poly) (ring (places g poly).length) l with
    | error e => simp
    | ok o1 =>
      simp only [Except.ok.injEq, exists_eq', true_and]
      cases kind with
      | plain => simp
      | region =>
        cases hp : pointInPolygon sq (places g poly) rounds (1 / 10 ^ 8) <;> simp
      | hole =>
        cases hp : pointInPolygon sq (places g poly) rounds (1 / 10 ^ 8) <;> simp

theorem addRegions_isOk {sq : K → K} {rounds : ℕ} {g : Option (Ref K)} (hg : Honest g) : ∀ {l : List (List (Pt K) × Option K)} {o : Outline K},
    (∃ o', addRegions sq rounds g l o = .ok o') ↔ ∀ r ∈ l, r.1.length ≠ 1 ∧ (r.2.isSome = true → Reachable sq rounds (places g r.1)) := by
  intro l
  induction l with
  | nil => intro o; simp [addRegions]
  | cons r rest ih =>
    intro o
    obtain ⟨poly, res⟩ := r
    simp only [addRegions, List.mem_cons, forall_eq_or_imp]
    have h1 := addArea_isOk (sq := sq) (rounds := rounds) (o := o) (poly := poly) (tags := none)
      (kind := if res.isSome then .region else .plain) (maxArea := res) hg
    have hk : (if res.isSome = true then Kind.region else Kind.plain) ≠ Kind.plain ↔ res.isSome = true := by cases res <;> simp
    rw [hk] at h1
    simp only [Option.getD_none, List.not_mem_nil, false_imp_iff, implies_true, true_and] at h1
    rw [← h1]
    cases ha : addArea sq rounds o poly none g (if res.isSome then .region else .plain) res with
    | error e => simp
    | ok o1 => simp only [ih, Except.ok.injEq, exists_eq', true_and]

theorem addHoles_isOk {sq : K → K} {rounds : ℕ} {g : Option (Ref K)} {holeTags : Option (List Tags)} (hg : Honest g) :
    ∀ {l : List (List (Pt K))} {n : ℕ} {o : Outline K}, (∃ o', addHoles sq rounds g holeTags n l o = .ok o') ↔
      ∀ (k : ℕ) h, l[k]? = some h → (∀ e ∈ ((holeTags.getD [])[n + k]?).getD [], ∀ i ∈ e.2, ∃ j, Means h.length i j) ∧ h.length ≠ 1 ∧
        Reachable sq rounds (places g h) := by
  intro l
  induction l with
  | nil => intro n o; simp [addHoles]
  | cons poly rest ih =>
    intro n o
    simp only [addHoles]
    have h1 := addArea_isOk (sq := sq) (rounds := rounds) (o := o) (poly := poly) (tags := some (((holeTags.getD [])[n]?).getD []))
      (kind := .hole) (maxArea := none) hg
    simp only [Option.getD_some, ne_eq, reduceCtorEq, not_false_eq_true, true_imp_iff] at h1
    have hs : (∀ (k : ℕ) h, (poly :: rest)[k]? = some h → (∀ e ∈ ((holeTags.getD [])[n + k]?).getD [], ∀ i ∈ e.2, ∃ j, Means h.length i j) ∧
        h.length ≠ 1 ∧ Reachable sq rounds (places g h)) ↔
        ((∀ e ∈ ((holeTags.getD [])[n]?).getD [], ∀ i ∈ e.2, ∃ j, Means poly.length i j) ∧ ¬ poly.length = 1 ∧ Reachable sq rounds (places g poly)) ∧
        ∀ (k : ℕ) h, rest[k]? = some h → (∀ e ∈ ((holeTags.getD [])[n + 1 + k]?).getD [], ∀ i ∈ e.2, ∃ j, Means h.length i j) ∧
          h.length ≠ 1 ∧ Reachable sq rounds (places g h) := by
      constructor
      · intro h
        refine ⟨by simpa using h 0 poly rfl, fun k h' hk => ?_⟩
        rw [show n + 1 + k = n + (k + 1) by omega]
        exact h (k + 1) h' (by simpa using hk)
      · rintro ⟨h0, h⟩ k h' hk
        cases k with
        | zero =>
          simp only [List.getElem?_cons_zero, Option.some.injEq] at hk
          subst hk
          simpa using h0
        | succ k =>
          rw [show n + (k + 1) = n + 1 + k by omega]
          exact h k h' (by simpa using hk)
    rw [hs, ← h1]
    cases ha : addArea sq rounds o poly (some (((holeTags.getD [])[n]?).getD [])) g .hole none with
    | error e => simp
    | ok o1 => simp only [ih, Except.ok.injEq, exists_eq', true_and]

theorem meshRef_isOk {a : Args K} (hb : a.bounding ≠ []) :
    (∃ r, meshRef a = .ok r) ↔ (a.meshRef = none → ∀ g, a.polyRef = some g → g.zone = -1 ∨ 1 ≤ g.zone ∧ g.zone ≤ 60) := by
  unfold meshRef
  cases hm : a.meshRef with
  | some g => simp
  | none =>
    cases hbb : a.bounding with
    | nil => exact absurd hbb hb
    | cons p ps =>
      simp only [List.map_cons, minOf, true_imp_iff]
      cases hp : a.polyRef with
      | none => simp [absolute, GeoRef.make, GeoRef.defaultZone]
      | some g =>
        have : ∃ q, absolute (some g) [⟨(ps.map (·.x)).foldl min p.x, (ps.map (·.y)).foldl min p.y⟩] = [q] := by
          unfold absolute
          simp only [GeoRef.toAbs]
          split <;> exact ⟨_, rfl⟩
        obtain ⟨q, hq⟩ := this
        simp only [hq, Option.some.injEq, forall_eq']
        unfold GeoRef.make
        by_cases hz : g.zone = -1 ∨ g.zone ≥ 1 ∧ g.zone ≤ 60
        · rw [if_pos hz]
          simp only [Except.ok.injEq, exists_eq', true_iff]
          exact hz
        · rw [if_neg hz]
          simp only [reduceCtorEq, exists_false, false_iff]
          exact hz

theorem keepRegions_isOk {sq : K → K} {a : Args K} :
    (∃ l, keepRegions sq a = .ok l) ↔ (a.failOutside = true → ∀ r ∈ a.interior.getD [], Contained sq a.bounding r.1) := by
  unfold keepRegions
  cases ha : a.interior with
  | none => simp
  | some l =>
    simp only [Option.getD_some]
    by_cases h : (a.failOutside && l.any fun r => !within sq a.bounding r.1) = true
    · rw [if_pos h]
      simp only [reduceCtorEq, exists_false, false_iff]
      rw [Bool.and_eq_true, List.any_eq_true] at h
      obtain ⟨h1, r, hr, h2⟩ := h
      intro hall
      have := (within_iff sq _ _).2 (hall h1 r hr)
      simp [this] at h2
    · rw [if_neg h]
      simp only [Except.ok.injEq, exists_eq', true_iff]
      intro h1 r hr
      by_contra hc
      apply h
      rw [h1, Bool.true_and, List.any_eq_true]
      refine ⟨r, hr, ?_⟩
      rw [← within_iff] at hc
      simpa using hc

theorem checkHoles_iff {sq : K → K} {a : Args K} :
    checkHoles sq a = true ↔ ∀ h ∈ a.holes.getD [], 3 ≤ h.length ∧ Contained sq a.bounding h := by
  unfold checkHoles
  simp only [List.all_eq_true, Bool.and_eq_true, decide_eq_true_eq, within_iff]

theorem checkTags_iff {tags : Option Tags} {n : ℕ} : checkTags tags n = true ↔ ∀ e ∈ tags.getD [], ∀ i ∈ e.2, i < n := by
  unfold checkTags
  cases tags with
  | none => simp
  | some d =>
    simp only [List.all_eq_true, decide_eq_true_eq, Option.getD_some]
    exact forall₂_congr fun e _ => forall₂_congr fun i _ => by omega

end Verif.Gen
