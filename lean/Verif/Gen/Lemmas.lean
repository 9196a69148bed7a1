import Verif.Gen.Spec

/-! Lemmas about tags and outlines. -/

set_option linter.unusedSectionVars false

namespace Verif.Gen

open Verif.Polygon (Pt)
open Verif.GeoRef (Ref)

variable {K : Type*} [Field K] [LinearOrder K]

/-! ### Tags -/

theorem pyIndex_some {n : ℕ} {i : ℤ} {j : ℕ} : pyIndex n i = some j ↔ Means n i j := by
  unfold pyIndex Means
  split
  · simp only [Option.some.injEq]
    constructor
    · rintro rfl; omega
    · intro h; omega
  · split
    · simp only [Option.some.injEq]
      constructor
      · rintro rfl; omega
      · intro h; omega
    · simp only [reduceCtorEq, false_iff]
      omega

theorem means_unique {n : ℕ} {i : ℤ} {j k : ℕ} (h : Means n i j) (h' : Means n i k) : j = k := by
  unfold Means at *
  omega

/-- The two loops as one over pairs. -/
def setPairs : List (String × ℤ) → List String → Except Err (List String)
  | [], l => .ok l
  | q :: qs, l => match pyIndex l.length q.2 with
    | some j => setPairs qs (l.set j q.1)
    | none => .error .index

theorem setTag_pairs (key : String) (is : List ℤ) : ∀ (rest : List (String × ℤ)) (l : List String),
    setPairs (is.map (fun i => (key, i)) ++ rest) l = match setTag key is l with
      | .ok l' => setPairs rest l'
      | .error e => .error e := by
  induction is with
  | nil => intro rest l; simp [setTag]
  | cons i is ih =>
    intro rest l
    simp only [List.map_cons, List.cons_append, setPairs, setTag]
    cases hj : pyIndex l.length i with
    | some j => exact ih rest _
    | none => rfl

theorem setTags_pairs (d : Tags) : ∀ l : List String, setTags d l = setPairs (d.flatMap fun e => e.2.map fun i => (e.1, i)) l := by
  induction d with
  | nil => intro l; rfl
  | cons e d ih =>
    intro l
    obtain ⟨key, is⟩ := e
    simp only [setTags, List.flatMap_cons]
    rw [setTag_pairs]
    cases h : setTag key is l with
    | ok l' => exact ih l'
    | error e => rfl

theorem setPairs_isOk (qs : List (String × ℤ)) : ∀ l : List String, (∃ l', setPairs qs l = .ok l') ↔ ∀ q ∈ qs, ∃ j, Means l.length q.2 j := by
  induction qs with
  | nil => intro l; simp [setPairs]
  | cons q qs ih =>
    intro l
    simp only [setPairs]
    cases h : pyIndex l.length q.2 with
    | none =>
      simp only [reduceCtorEq, exists_false, false_iff]
      intro hall
      obtain ⟨j, hj⟩ := hall q List.mem_cons_self
      rw [pyIndex_some.2 hj] at h
      simp at h
    | some j =>
      simp only [ih, List.length_set, List.mem_cons, forall_eq_or_imp]
      exact ⟨fun h' => ⟨⟨j, pyIndex_some.1 h⟩, h'⟩, fun h' => h'.2⟩

theorem setPairs_spec (qs : List (String × ℤ)) : ∀ l l' : List String, setPairs qs l = .ok l' → l'.length = l.length ∧
    ∀ (j : ℕ) (t : String), l'[j]? = some t → ((∃ A i B, qs = A ++ (t, i) :: B ∧ Means l.length i j ∧ ∀ q ∈ B, ¬ Means l.length q.2 j) ∨
      ((∀ q ∈ qs, ¬ Means l.length q.2 j) ∧ l[j]? = some t)) := by
  induction qs with
  | nil =>
    intro l l' h
    simp only [setPairs, Except.ok.injEq] at h
    subst h
    exact ⟨rfl, fun j t ht => Or.inr ⟨by simp, ht⟩⟩
  | cons q qs ih =>
    intro l l' h
    simp only [setPairs] at h
    split at h
    · next k hk =>
      obtain ⟨h1, h2⟩ := ih _ _ h
      rw [List.length_set] at h1
      refine ⟨h1, fun j t ht => ?_⟩
      rcases h2 j t ht with ⟨A, i, B, e, hm, hB⟩ | ⟨hn, hl⟩
      · rw [List.length_set] at hm hB
        exact Or.inl ⟨q :: A, i, B, by rw [e]; rfl, hm, hB⟩
      · rw [List.length_set] at hn
        rw [List.getElem?_set] at hl
        have hk' := pyIndex_some.1 hk
        split at hl
        · next hkj =>
          subst hkj
          rw [if_pos hk'.1] at hl
          simp only [Option.some.injEq] at hl
          exact Or.inl ⟨[], q.2, qs, by rw [← hl]; rfl, hk', hn⟩
        · next hkj =>
          refine Or.inr ⟨?_, hl⟩
          intro p hp
          rcases List.mem_cons.1 hp with rfl | hp
          · exact fun hm => hkj (means_unique hk' hm)
          · exact hn p hp
    · simp at h

theorem tagList_spec {tags : Option Tags} {n : ℕ} {hole : Bool} {l : List String} (h : tagList tags n hole = .ok l) :
    TagsOf (tags.getD []) n (if hole then "interior" else "") l := by
  unfold tagList at h
  cases tags with
  | none =>
    simp only [Except.ok.injEq] at h
    subst h
    refine ⟨by simp, fun j t ht => Or.inr ⟨by simp, ?_⟩⟩
    exact List.eq_of_mem_replicate (List.mem_of_getElem? ht)
  | some d =>
    simp only [setTags_pairs] at h
    obtain ⟨h1, h2⟩ := setPairs_spec _ _ _ h
    refine ⟨by simpa using h1, fun j t ht => ?_⟩
    rcases h2 j t ht with h3 | ⟨h3, h4⟩
    · left
      simpa using h3
    · right
      refine ⟨?_, List.eq_of_mem_replicate (List.mem_of_getElem? h4)⟩
      intro e he i hi
      have := h3 (e.1, i) (List.mem_flatMap.2 ⟨e, he, List.mem_map.2 ⟨i, hi, rfl⟩⟩)
      simpa using this

theorem tagList_isOk {tags : Option Tags} {n : ℕ} {hole : Bool} :
    (∃ l, tagList tags n hole = .ok l) ↔ ∀ e ∈ tags.getD [], ∀ i ∈ e.2, ∃ j, Means n i j := by
  unfold tagList
  cases tags with
  | none => simp
  | some d =>
    simp only [setTags_pairs, setPairs_isOk, List.length_replicate, Option.getD_some]
    constructor
    · intro h e he i hi
      exact h (e.1, i) (List.mem_flatMap.2 ⟨e, he, List.mem_map.2 ⟨i, hi, rfl⟩⟩)
    · intro h q hq
      obtain ⟨e, he, hq⟩ := List.mem_flatMap.1 hq
      obtain ⟨i, hi, rfl⟩ := List.mem_map.1 hq
      exact h e he i hi

/-! ### Outlines -/

/-- All segments refer to vertices. -/
def Outline.WF (o : Outline K) : Prop := ∀ s ∈ o.segs, s.1.1 < o.verts.length ∧ s.1.2 < o.verts.length

theorem addOrigin_sub (g : Ref K) (p : Pt K) : shift g.x g.y (GeoRef.subOrigin g p) = p := by
  simp [shift, GeoRef.subOrigin]

theorem addVertsSegs_ok {o o' : Outline K} {points : List (Pt K)} {segs : List (ℕ × ℕ)} {tags : List String} (hw : o.WF)
    (h : addVertsSegs o points segs tags = .ok o') :
    o'.WF ∧ o'.ref = o.ref ∧ o'.holes = o.holes ∧ o'.regions = o.regions ∧
      o'.picture = o.picture ++ (segs.zip tags).map (fun s => ((points[s.1.1]?, points[s.1.2]?), s.2)) := by
  unfold addVertsSegs at h
  split at h
  · simp at h
  · next hin =>
    split at h
    · simp at h
    · next hne =>
      simp only [Except.ok.injEq] at h
      subst h
      have hin' : ∀ s ∈ segs.zip tags, s.1.1 < points.length ∧ s.1.2 < points.length := by
        intro s hs
        have := mt (fun h' => List.any_eq_true.2 ⟨s, hs, h'⟩) hin
        simp only [decide_eq_true_eq] at this
        omega
      refine ⟨?_, rfl, rfl, rfl, ?_⟩
      · intro s hs
        simp only [List.mem_append, List.mem_map, List.length_append, List.length_map] at hs ⊢
        rcases hs with hs | ⟨q, hq, rfl⟩
        · have := hw s hs
          omega
        · have := hin' q hq
          simp only
          omega
      · simp only [Outline.picture, List.map_append, List.map_map]
        congr 1
        · apply List.map_congr_left
          intro s hs
          have := hw s hs
          rw [List.getElem?_append_left this.1, List.getElem?_append_left this.2]
        · apply List.map_congr_left
          intro s _
          simp only [Function.comp_apply]
          have key : ∀ i : ℕ, ((o.verts ++ points.map (GeoRef.subOrigin o.ref))[i + o.verts.length]?).map (shift o.ref.x o.ref.y) = points[i]? := by
            intro i
            rw [List.getElem?_append_right (by omega), Nat.add_sub_cancel, List.getElem?_map, Option.map_map]
            have : (shift o.ref.x o.ref.y ∘ GeoRef.subOrigin o.ref) = id := by
              funext p; exact addOrigin_sub _ _
            rw [this, Option.map_id, id]
          rw [key, key]

theorem ring_picture (ps : List (Pt K)) (tags : List String) (_ht : tags.length = ps.length) :
    ((ring ps.length).zip tags).map (fun s => ((ps[s.1.1]?, ps[s.1.2]?), s.2)) = drawn (sides ps) tags := by
  apply List.ext_getElem?
  intro j
  unfold drawn sides ring
  simp only [List.zip, List.getElem?_map, List.getElem?_zipWith]
  by_cases hj : j < ps.length
  · have hpos : 0 < ps.length := by omega
    rw [List.getElem?_range hj, List.getElem?_eq_getElem hj, List.getElem?_eq_getElem (l := ps.rotate 1) (by rw [List.length_rotate]; exact hj)]
    rcases tags[j]? with _ | t
    · simp
    · simp only [Option.map_some, List.getElem?_eq_getElem hj, List.getElem?_eq_getElem (Nat.mod_lt _ hpos), List.getElem_rotate]
  · rw [List.getElem?_eq_none (l := List.range ps.length) (by simpa using hj), List.getElem?_eq_none (l := ps) (by omega)]
    simp

theorem ring_zip_bounds {n : ℕ} {tags : List String} {s : (ℕ × ℕ) × String} (h : s ∈ (ring n).zip tags) :
    s.1.1 < n ∧ s.1.2 = (s.1.1 + 1) % n := by
  have := (List.of_mem_zip h).1
  unfold ring at this
  obtain ⟨i, hi, e⟩ := List.mem_map.1 this
  rw [← e]
  exact ⟨List.mem_range.1 hi, rfl⟩

/-- Adding a ring of segments works exactly if the polygon is not a single point. -/
theorem addVertsSegs_ring_isOk {o : Outline K} {points : List (Pt K)} {tags : List String} (ht : tags.length = points.length) :
    (∃ o', addVertsSegs o points (ring points.length) tags = .ok o') ↔ points.length ≠ 1 := by
  have hb : ∀ s ∈ (ring points.length).zip tags, s.1.1 < points.length ∧ s.1.2 = (s.1.1 + 1) % points.length := fun s hs => ring_zip_bounds hs
  unfold addVertsSegs
  rw [if_neg]
  · constructor
    · rintro ⟨o', h⟩ h1
      rw [if_pos] at h
      · simp at h
      · match points, tags, h1, ht with
        | [p], [t], _, _ => simp [ring]
    · intro h1
      rw [if_neg]
      · exact ⟨_, rfl⟩
      · rw [List.any_eq_true]
        rintro ⟨s, hs, he⟩
        obtain ⟨h2, h3⟩ := hb s hs
        simp only [beq_iff_eq] at he
        rw [h3] at he
        rcases Nat.lt_or_ge (s.1.1 + 1) points.length with h4 | h4
        · rw [Nat.mod_eq_of_lt h4] at he; omega
        · have : s.1.1 + 1 = points.length := by omega
          rw [this, Nat.mod_self] at he
          omega
  · rw [List.any_eq_true]
    rintro ⟨s, hs, he⟩
    obtain ⟨h2, h3⟩ := hb s hs
    have : (s.1.1 + 1) % points.length < points.length := Nat.mod_lt _ (by omega)
    simp only [decide_eq_true_eq] at he
    omega

theorem absolute_places {g : Option (Ref K)} (hg : Honest g) (ps : List (Pt K)) : absolute g ps = places g ps := by
  unfold absolute places
  cases g with
  | none => rfl
  | some r =>
    simp only [GeoRef.toAbs]
    split
    · next ha =>
      obtain ⟨h1, h2⟩ := hg r rfl ha
      have : shift r.x r.y = id := by
        funext p
        simp [shift, h1, h2]
      rw [this]
      simp
    · rfl

theorem addRegionPts_spec (o : Outline K) (l : List (Pt K × Option K)) :
    (addRegionPts o l).ref = o.ref ∧ (addRegionPts o l).picture = o.picture ∧ (addRegionPts o l).holes = o.holes ∧
      (addRegionPts o l).regionPlaces = o.regionPlaces ++ l.map (fun r => (r.1, "", r.2)) ∧ (o.WF → (addRegionPts o l).WF) := by
  refine ⟨rfl, rfl, rfl, ?_, fun h => h⟩
  unfold addRegionPts Outline.regionPlaces
  rw [List.map_append, List.map_map]
  congr 1
  apply List.map_congr_left
  intro r _
  simp only [Function.comp_apply, addOrigin_sub]

theorem pointInPolygon_inside {sq : K → K} {poly : List (Pt K)} {rounds : ℕ} : ∀ {delta : K} {p : Pt K},
    pointInPolygon sq poly rounds delta = some p → Inside sq poly p := by
  induction rounds with
  | zero => intro delta p h; simp [pointInPolygon] at h
  | succ n ih =>
    intro delta p h
    simp only [pointInPolygon] at h
    split at h
    · next q hq =>
      simp only [Option.some.injEq] at h
      subst h
      have := List.find?_some hq
      simpa [Inside] using this
    · exact ih h

theorem addArea_ok {sq : K → K} {rounds : ℕ} {o o' : Outline K} {poly : List (Pt K)} {tags : Option Tags} {g : Option (Ref K)} {kind : Kind}
    {maxArea : Option K} (hg : Honest g) (hw : o.WF) (h : addArea sq rounds o poly tags g kind maxArea = .ok o') :
    ∃ l, TagsOf (tags.getD []) poly.length (if kind = .hole then "interior" else "") l ∧ o'.WF ∧ o'.ref = o.ref ∧
      o'.picture = o.picture ++ drawn (sides (places g poly)) l ∧
      (kind = .plain → o'.regionPlaces = o.regionPlaces ∧ o'.holePlaces = o.holePlaces) ∧
      (kind = .region → ∃ p, Inside sq (places g poly) p ∧ o'.regionPlaces = o.regionPlaces ++ [(p, "", maxArea)] ∧ o'.holePlaces = o.holePlaces) ∧
      (kind = .hole → ∃ p, Inside sq (places g poly) p ∧ o'.regionPlaces = o.regionPlaces ∧ o'.holePlaces = o.holePlaces ++ [p]) := by
  unfold addArea at h
  simp only at h
  have hlen : (absolute g poly).length = poly.length := by
    rw [absolute_places hg]
    unfold places
    cases g <;> simp
  split at h
  · simp at h
  · next l hl =>
    have hts := tagList_spec hl
    rw [hlen] at hts
    have hk : (kind == Kind.hole) = decide (kind = Kind.hole) := by cases kind <;> rfl
    rw [hk] at hts
    simp only [decide_eq_true_eq] at hts
    have hll : l.length = (absolute g poly).length := by rw [hlen]; exact hts.1
    split at h
    · simp at h
    · next o1 ho1 =>
      obtain ⟨w1, r1, hh1, rg1, p1⟩ := addVertsSegs_ok hw ho1
      rw [ring_picture _ _ hll, absolute_places hg] at p1
      have hrp : o1.regionPlaces = o.regionPlaces := by unfold Outline.regionPlaces; rw [r1, rg1]
      have hhp : o1.holePlaces = o.holePlaces := by unfold Outline.holePlaces; rw [r1, hh1]
      cases kind with
      | plain =>
        simp only [Except.ok.injEq] at h
        subst h
        exact ⟨l, hts, w1, r1, p1, fun _ => ⟨hrp, hhp⟩, by simp, by simp⟩
      | region =>
        simp only at h
        split at h
        · simp at h
        · next p hp =>
          simp only [Except.ok.injEq] at h
          subst h
          obtain ⟨e1, e2, e3, e4, e5⟩ := addRegionPts_spec o1 [(p, maxArea)]
          refine ⟨l, hts, e5 w1, e1.trans r1, e2.trans p1, by simp, fun _ => ⟨p, ?_, ?_, ?_⟩, by simp⟩
          · rw [← absolute_places hg]; exact pointInPolygon_inside hp
          · rw [e4, hrp]; rfl
          · unfold Outline.holePlaces at hhp ⊢; rw [e3, e1]; exact hhp
      | hole =>
        simp only at h
        split at h
        · simp at h
        · next p hp =>
          simp only [Except.ok.injEq] at h
          subst h
          refine ⟨l, hts, w1, r1, p1, by simp, by simp, fun _ => ⟨p, ?_, hrp, ?_⟩⟩
          · rw [← absolute_places hg]; exact pointInPolygon_inside hp
          · unfold Outline.holePlaces at hhp ⊢
            rw [List.map_append, hhp]
            simp [addOrigin_sub]

theorem breakParts_shape (b : List (List (Pt K))) : ∀ (pre : List (Pt K)),
    (∀ s ∈ (breakParts pre.length b).2, s.1 < s.2 ∧ s.2 < (pre ++ (breakParts pre.length b).1).length) ∧
      (breakParts pre.length b).2.map (fun s => ((pre ++ (breakParts pre.length b).1)[s.1]?, (pre ++ (breakParts pre.length b).1)[s.2]?)) =
        (b.flatMap pieces).map (fun s => (some s.1, some s.2)) := by
  induction b with
  | nil => intro pre; simp [breakParts]
  | cons line rest ih =>
    intro pre
    have hsplit : breakParts pre.length (line :: rest) = (line ++ (breakParts (pre ++ line).length rest).1,
        (List.range (line.length - 1)).map (fun i : ℕ => (pre.length + i, pre.length + i + 1)) ++ (breakParts (pre ++ line).length rest).2) := by
      simp [breakParts]
    obtain ⟨h1, h2⟩ := ih (pre ++ line)
    rw [hsplit]
    simp only [← List.append_assoc]
    constructor
    · intro s hs
      rcases List.mem_append.1 hs with hs | hs
      · obtain ⟨i, hi, rfl⟩ := List.mem_map.1 hs
        rw [List.mem_range] at hi
        simp only [List.length_append]
        omega
      · exact h1 s hs
    · rw [List.map_append, h2, List.flatMap_cons, List.map_append, List.map_map]
      congr 1
      unfold pieces
      apply List.ext_getElem?
      intro j
      rw [List.getElem?_map, List.getElem?_map, List.zip, List.getElem?_zipWith, List.getElem?_tail]
      by_cases hj : j < line.length - 1
      · rw [List.getElem?_range hj, List.getElem?_eq_getElem (l := line) (i := j) (by omega),
          List.getElem?_eq_getElem (l := line) (i := j + 1) (by omega)]
        simp only [Option.map_some, Function.comp_apply, Option.some.injEq, Prod.mk.injEq]
        have key : ∀ k (hk : k < line.length), (pre ++ line ++ (breakParts (pre ++ line).length rest).1)[pre.length + k]? = some line[k] := by
          intro k hk
          rw [List.append_assoc, List.getElem?_append_right (by omega), show pre.length + k - pre.length = k by omega,
            List.getElem?_append_left hk, List.getElem?_eq_getElem hk]
        exact ⟨key j (by omega), key (j + 1) (by omega)⟩
      · rw [List.getElem?_eq_none (l := List.range _) (by simpa using hj), List.getElem?_eq_none (l := line) (i := j + 1) (by omega)]
        rcases line[j]? with _ | a <;> simp

theorem addBreaklines_ok {b : Option (List (List (Pt K)))} {o : Outline K} (hw : o.WF) :
    ∃ o', addBreaklines b o = .ok o' ∧ o'.WF ∧ o'.ref = o.ref ∧ o'.holes = o.holes ∧ o'.regions = o.regions ∧
      o'.picture = o.picture ++ ((b.getD []).flatMap pieces).map (fun s => ((some s.1, some s.2), "")) := by
  cases b with
  | none => exact ⟨o, rfl, hw, rfl, rfl, rfl, by simp⟩
  | some b =>
    obtain ⟨h1, h2⟩ := breakParts_shape b []
    simp only [List.length_nil, List.nil_append] at h1 h2
    have hz : ∀ s ∈ (breakParts 0 b).2.zip (List.replicate (breakParts 0 b).2.length ""), s.1 ∈ (breakParts 0 b).2 :=
      fun s hs => (List.of_mem_zip hs).1
    have hok : ∃ o', addBreaklines (some b) o = .ok o' := by
      simp only [addBreaklines, addPointsSegs, tagList, Bool.false_eq_true, if_false, addVertsSegs]
      rw [if_neg, if_neg]
      · exact ⟨_, rfl⟩
      · rw [List.any_eq_true]
        rintro ⟨s, hs, he⟩
        have := h1 _ (hz s hs)
        simp only [beq_iff_eq] at he
        omega
      · rw [List.any_eq_true]
        rintro ⟨s, hs, he⟩
        have := h1 _ (hz s hs)
        simp only [decide_eq_true_eq] at he
        omega
    obtain ⟨o', ho'⟩ := hok
    refine ⟨o', ho', ?_⟩
    simp only [addBreaklines, addPointsSegs, tagList, Bool.false_eq_true, if_false] at ho'
    obtain ⟨a1, a2, a3, a4, a5⟩ := addVertsSegs_ok hw ho'
    refine ⟨a1, a2, a3, a4, ?_⟩
    rw [a5, Option.getD_some]
    congr 1
    have h3 : ((breakParts 0 b).2.zip (List.replicate (breakParts 0 b).2.length "")).map
        (fun s => (((breakParts 0 b).1[s.1.1]?, (breakParts 0 b).1[s.1.2]?), s.2)) =
        ((breakParts 0 b).2.map (fun s => ((breakParts 0 b).1[s.1]?, (breakParts 0 b).1[s.2]?))).map (fun p => (p, "")) := by
      rw [List.map_map]
      apply List.ext_getElem?
      intro j
      rw [List.getElem?_map, List.getElem?_map, List.zip, List.getElem?_zipWith]
      by_cases hj : j < (breakParts 0 b).2.length
      · rw [List.getElem?_eq_getElem hj, List.getElem?_replicate, if_pos hj]
        simp
      · rw [List.getElem?_eq_none (by omega)]
        simp
    rw [h3, h2, List.map_map]
    rfl

end Verif.Gen
