import Verif.Region.PropsLine

/-!
# C60: which triangles a region selects; C61: polygon_overlap
-/

set_option linter.unusedSectionVars false

namespace Verif.Region

open Verif.Polygon

variable {K : Type*} [Field K] [LinearOrder K] [IsStrictOrderedRing K]

/-- The full triangles among those selected. -/
def FullAmong (d : Dom K) (sel : ℕ → Prop) (f : List ℕ) : Prop := ∀ k, k ∈ f ↔ sel k ∧ d.full[k]? = some true

private theorem getD_full (l : List Bool) (k : ℕ) : l.getD k false = true ↔ l[k]? = some true := by
  rw [List.getD_eq_getElem?_getD]
  cases h : l[k]? with
  | none => simp
  | some b => simp

private theorem fullOf_some (d : Dom K) (idx : List ℕ) (h : ∀ k ∈ idx, k < d.full.length) :
    ∃ f, fullOf d (some idx) = .ok f ∧ f.Sublist idx ∧ FullAmong d (· ∈ idx) f := by
  unfold fullOf
  simp only
  rw [if_pos (by simpa using h)]
  refine ⟨_, rfl, List.filter_sublist, fun k => ?_⟩
  rw [List.mem_filter, getD_full]

private theorem finish_ok (d : Dom K) (kind : Kind) (idx : List ℕ) (h : ∀ k ∈ idx, k < d.full.length) :
    ∃ r, finish d kind (.ok idx) = .ok r ∧ r.indices = some idx ∧ r.kind = kind ∧ r.fullIndices.Sublist idx ∧
      FullAmong d (· ∈ idx) r.fullIndices := by
  obtain ⟨f, h1, h2, h3⟩ := fullOf_some d idx h
  unfold finish
  simp only [h1]
  exact ⟨_, rfl, rfl, rfl, h2, h3⟩

/-- A domain whose three lists belong to the same triangles. -/
def Dom.Sized (d : Dom K) : Prop := d.centroids.length = d.tris.length ∧ d.full.length = d.tris.length

/-- Nothing but the named arguments given. -/
def none' : Args K := ⟨none, none, none, none, none, none, false⟩

/-- C60: without arguments the region is the whole domain, its full indices all full triangles. -/
theorem C60_everything (sq : K → K) (d : Dom K) (e : Bool) :
    ∃ r, make sq d { none' with expand := e } = .ok r ∧ r.indices = none ∧ FullAmong d (fun _ => True) r.fullIndices := by
  refine ⟨_, rfl, rfl, fun k => ?_⟩
  rw [List.mem_filter, List.mem_range, getD_full, true_and]
  constructor
  · exact fun h => h.2
  · exact fun h => ⟨(List.getElem?_eq_some_iff.1 h).1, h⟩

/-- C60: given indices are kept as they are; one out of range raises. -/
theorem C60_indices (sq : K → K) (d : Dom K) (idx : List ℕ) (p : Option (List (Pt K))) (e : Bool) :
    ((∀ k ∈ idx, k < d.full.length) →
      ∃ r, make sq d { none' with indices := some idx, poly := p, expand := e } = .ok r ∧ r.indices = some idx ∧
        (r.kind = .empty ↔ idx = []) ∧ FullAmong d (· ∈ idx) r.fullIndices) ∧
    ((∃ k ∈ idx, d.full.length ≤ k) → make sq d { none' with indices := some idx, poly := p, expand := e } = .error .badIndex) := by
  constructor
  · intro h
    obtain ⟨r, h1, h2, h3, -, h5⟩ := finish_ok d (if idx = [] then .empty else .indices) idx h
    refine ⟨r, h1, h2, ?_, h5⟩
    rw [h3]
    split_ifs with hi <;> simp [hi]
  · rintro ⟨k, hk, hle⟩
    show finish d _ (.ok idx) = _
    unfold finish fullOf
    simp only
    rw [if_neg]
    intro h
    rw [List.all_eq_true] at h
    have := h k hk
    simp only [decide_eq_true_eq] at this
    omega

/-- C60: a circle selects, in order, exactly the triangles whose centroid is strictly inside it; none at all raises unless the domain is
a part of a parallel one. -/
theorem C60_circle (sq : K → K) (d : Dom K) (hd : d.Sized) (c : Pt K) (r : K) (p : Option (List (Pt K))) (e : Bool) :
    (∃ reg idx, make sq d { none' with center := some c, radius := some r, poly := p, expand := e } = .ok reg ∧
      reg.indices = some idx ∧ idx.Pairwise (· < ·) ∧ FullAmong d (· ∈ idx) reg.fullIndices ∧
      (∀ k, k ∈ idx ↔ ∃ q, d.centroids[k]? = some q ∧ (q.x - c.x) ^ 2 + (q.y - c.y) ^ 2 < r ^ 2)) ∨
    (make sq d { none' with center := some c, radius := some r, poly := p, expand := e } = .error .nothingFound ∧
      d.parallel = false ∧ ∀ q ∈ d.centroids, r ^ 2 ≤ (q.x - c.x) ^ 2 + (q.y - c.y) ^ 2) := by
  show (∃ reg idx, finish d .circle (setupCircle d c r) = .ok reg ∧ _) ∨ (finish d .circle (setupCircle d c r) = _ ∧ _)
  unfold setupCircle
  simp only
  generalize hI : (List.range d.centroids.length).filter _ = idx
  have hmem : ∀ k, k ∈ idx ↔ ∃ q, d.centroids[k]? = some q ∧ (q.x - c.x) ^ 2 + (q.y - c.y) ^ 2 < r ^ 2 := by
    intro k
    rw [← hI, List.mem_filter, List.mem_range]
    constructor
    · rintro ⟨hk, h⟩
      rw [List.getElem?_eq_getElem hk] at h ⊢
      exact ⟨_, rfl, by simpa using h⟩
    · rintro ⟨q, hk, h⟩
      rw [hk]
      exact ⟨(List.getElem?_eq_some_iff.1 hk).1, by simpa using h⟩
  have hlt : ∀ k ∈ idx, k < d.full.length := by
    intro k hk
    obtain ⟨q, hq, -⟩ := (hmem k).1 hk
    rw [hd.2, ← hd.1]
    exact (List.getElem?_eq_some_iff.1 hq).1
  by_cases hp : d.parallel = false ∧ idx = []
  · right
    rw [if_pos hp]
    refine ⟨rfl, hp.1, fun q hq => ?_⟩
    obtain ⟨k, hk⟩ := List.mem_iff_getElem?.1 hq
    by_contra hc
    have := (hmem k).2 ⟨q, hk, not_le.1 hc⟩
    rw [hp.2] at this
    simp at this
  · left
    rw [if_neg hp]
    obtain ⟨reg, h1, h2, -, -, h5⟩ := finish_ok d .circle idx hlt
    refine ⟨reg, idx, h1, h2, ?_, h5, hmem⟩
    rw [← hI]
    exact (List.pairwise_lt_range).filter _

/-- Membership in numpy's `union1d`. -/
theorem mem_union1d (u v : List ℕ) (k : ℕ) : k ∈ union1d u v ↔ k ∈ u ∨ k ∈ v := by
  unfold union1d
  rw [List.mem_filter, List.mem_range, decide_eq_true_eq, List.mem_append]
  constructor
  · exact fun h => h.2
  · intro h
    refine ⟨?_, h⟩
    have : ∀ (l : List ℕ) (x : ℕ), x ∈ l → x ≤ l.foldr max 0 := by
      intro l
      induction l with
      | nil => intro x hx; simp at hx
      | cons y l ih =>
        intro x hx
        rw [List.foldr_cons]
        rcases List.mem_cons.1 hx with rfl | hx
        · exact le_max_left _ _
        · exact (ih x hx).trans (le_max_right _ _)
    exact Nat.lt_succ_of_le (this _ _ (List.mem_append.2 h))

theorem mem_expandLoop (ts : List (Tri K)) (ht : ∀ t ∈ ts, t.det ≠ 0) (es : List (Pt K × Pt K)) (he : ∀ e ∈ es, e.1 ≠ e.2) :
    ∀ idx k, k ∈ expandLoop ts es idx ↔ k ∈ idx ∨ ∃ e ∈ es, ∃ t, ts[k]? = some t ∧ Meets e.1 e.2 t := by
  induction es with
  | nil => intro idx k; simp [expandLoop]
  | cons e es ih =>
    intro idx k
    unfold expandLoop
    rw [ih (fun e h => he e (List.mem_cons_of_mem _ h)), mem_union1d]
    obtain ⟨i, o, h1, -, -, -, h5, -⟩ := C59_line_indices ts e.1 e.2 (he e (by simp)) ht
    rw [h1, Option.getD_some, h5, List.exists_mem_cons_iff]
    constructor
    · rintro ((h | h) | h)
      exacts [Or.inr (Or.inl h), Or.inl h, Or.inr (Or.inr h)]
    · rintro (h | h | h)
      exacts [Or.inl (Or.inr h), Or.inl (Or.inl h), Or.inr h]

/-- C60: a polygon selects exactly the triangles whose centroid passes the closed point-in-polygon test; with `expand_polygon` also
those that one of its sides meets. -/
theorem C60_polygon (sq : K → K) (d : Dom K) (hd : d.Sized) (poly : List (Pt K)) (p : Option (List (Pt K))) (e : Bool)
    (ht : ∀ t ∈ d.tris, t.det ≠ 0) (hp : ∀ s ∈ edges poly, s.1 ≠ s.2) :
    ∃ reg idx, make sq d { none' with polygon := some poly, poly := p, expand := e } = .ok reg ∧ reg.indices = some idx ∧
      FullAmong d (· ∈ idx) reg.fullIndices ∧
      ∀ k, k ∈ idx ↔ (∃ q, d.centroids[k]? = some q ∧ isInsidePolygon sq true q poly = some true) ∨
        (e = true ∧ ∃ s ∈ edges poly, ∃ t, d.tris[k]? = some t ∧ Meets s.1 s.2 t) := by
  show ∃ reg idx, finish d .polygon (setupPolygon sq d poly e) = .ok reg ∧ _
  unfold setupPolygon
  simp only
  generalize hI : (if e = true then expandLoop d.tris (edges poly) (insidePolygon sq true d.centroids poly)
    else insidePolygon sq true d.centroids poly) = idx
  have hin : ∀ k, k ∈ insidePolygon sq true d.centroids poly ↔
      ∃ q, d.centroids[k]? = some q ∧ isInsidePolygon sq true q poly = some true := by
    intro k
    rw [(C17_inside sq true d.centroids poly).2 k]
    constructor
    · rintro ⟨h, h2⟩; exact ⟨_, List.getElem?_eq_getElem h, h2⟩
    · rintro ⟨q, h, h2⟩
      obtain ⟨h3, rfl⟩ := List.getElem?_eq_some_iff.1 h
      exact ⟨h3, h2⟩
  have hmem : ∀ k, k ∈ idx ↔ (∃ q, d.centroids[k]? = some q ∧ isInsidePolygon sq true q poly = some true) ∨
        (e = true ∧ ∃ s ∈ edges poly, ∃ t, d.tris[k]? = some t ∧ Meets s.1 s.2 t) := by
    intro k
    rw [← hI, ← hin]
    cases e with
    | false => simp
    | true => simp only [if_true, true_and]; exact mem_expandLoop d.tris ht _ hp _ k
  have hlt : ∀ k ∈ idx, k < d.full.length := by
    intro k hk
    rcases (hmem k).1 hk with ⟨q, hq, -⟩ | ⟨-, s, -, t, hq, -⟩
    · rw [hd.2, ← hd.1]
      exact (List.getElem?_eq_some_iff.1 hq).1
    · rw [hd.2]
      exact (List.getElem?_eq_some_iff.1 hq).1
  obtain ⟨reg, h1, h2, -, -, h5⟩ := finish_ok d .polygon idx hlt
  exact ⟨reg, idx, h1, h2, h5, hmem⟩

/-- C60: a line selects exactly the triangles it meets; none at all raises unless the domain is a part of a parallel one. -/
theorem C60_line (sq : K → K) (d : Dom K) (hd : d.Sized) (p0 p1 : Pt K) (hp : p0 ≠ p1) (p : Option (List (Pt K))) (e : Bool)
    (ht : ∀ t ∈ d.tris, t.det ≠ 0) :
    (∃ reg idx, make sq d { none' with line := some [p0, p1], poly := p, expand := e } = .ok reg ∧ reg.indices = some idx ∧
      idx.Pairwise (· < ·) ∧ FullAmong d (· ∈ idx) reg.fullIndices ∧ ∀ k, k ∈ idx ↔ ∃ t, d.tris[k]? = some t ∧ Meets p0 p1 t) ∨
    (make sq d { none' with line := some [p0, p1], poly := p, expand := e } = .error .nothingFound ∧ d.parallel = false ∧
      ∀ t ∈ d.tris, ¬ Meets p0 p1 t) := by
  show (∃ reg idx, finish d .line (setupLine d [p0, p1]) = .ok reg ∧ _) ∨ (finish d .line (setupLine d [p0, p1]) = _ ∧ _)
  obtain ⟨idx, o, h1, -, hs, -, hmem, -⟩ := C59_line_indices d.tris p0 p1 hp ht
  unfold setupLine
  simp only [h1]
  by_cases hpar : d.parallel = false ∧ idx = []
  · right
    rw [if_pos hpar]
    refine ⟨rfl, hpar.1, fun t htm hm => ?_⟩
    obtain ⟨k, hk⟩ := List.mem_iff_getElem?.1 htm
    have := (hmem k).2 ⟨t, hk, hm⟩
    rw [hpar.2] at this
    simp at this
  · left
    rw [if_neg hpar]
    have hlt : ∀ k ∈ idx, k < d.full.length := by
      intro k hk
      obtain ⟨t, hq, -⟩ := (hmem k).1 hk
      rw [hd.2]
      exact (List.getElem?_eq_some_iff.1 hq).1
    obtain ⟨reg, g1, g2, -, -, g5⟩ := finish_ok d .line idx hlt
    exact ⟨reg, idx, g1, g2, hs, g5, hmem⟩

/-- C60: `poly` with more than two points is treated as `polygon`, otherwise as `line`. -/
theorem C60_poly (sq : K → K) (d : Dom K) (p : List (Pt K)) (e : Bool) :
    (2 < p.length → make sq d { none' with poly := some p, expand := e } = make sq d { none' with polygon := some p, expand := e }) ∧
    (p.length ≤ 2 → make sq d { none' with poly := some p, expand := e } = make sq d { none' with line := some p, expand := e }) := by
  constructor
  · intro h
    simp [make, none', h]
  · intro h
    simp [make, none', Nat.not_lt.2 h]

/-- C60: `get_indices` returns the selection, and with `full_only` exactly its triangles that are not ghosts. -/
theorem C60_get (sq : K → K) (d : Dom K) (a : Args K) (r : Reg) (h : make sq d a = .ok r) :
    r.get false = r.indices ∧
    ∃ l, r.get true = some l ∧ FullAmong d (fun k => ∀ idx, r.indices = some idx → k ∈ idx) l := by
  refine ⟨rfl, r.fullIndices, rfl, ?_⟩
  have key : ∀ kind found, finish d kind found = .ok r → FullAmong d (fun k => ∀ idx, r.indices = some idx → k ∈ idx) r.fullIndices := by
    intro kind found hf
    cases found with
    | error e => cases hf
    | ok idx =>
      by_cases hb : ∀ k ∈ idx, k < d.full.length
      · obtain ⟨r', h1, h2, -, -, h5⟩ := finish_ok d kind idx hb
        rw [h1] at hf
        cases hf
        intro k
        rw [h5 k, h2]
        simp
      · exfalso
        revert hf
        unfold finish fullOf
        simp [hb]
  have hall : ∀ kind, (match fullOf d none with | .error e => .error e | .ok f => .ok ⟨none, f, kind⟩ : Except Err Reg) = .ok r →
      FullAmong d (fun k => ∀ idx, r.indices = some idx → k ∈ idx) r.fullIndices := by
    intro kind hf
    cases hf
    intro k
    simp only [reduceCtorEq, false_imp_iff, implies_true, true_and]
    rw [List.mem_filter, List.mem_range, getD_full]
    exact ⟨fun h => h.2, fun h => ⟨(List.getElem?_eq_some_iff.1 h).1, h⟩⟩
  obtain ⟨i, pg, c, r', l, p, e⟩ := a
  cases i <;> cases pg <;> cases c <;> cases r' <;> cases l <;> cases p <;> simp [make] at h <;>
    first
    | exact key _ _ h
    | exact hall _ h
    | (split_ifs at h <;> exact key _ _ h)

/-- C60: two ways of selecting at once are refused: of indices, a circle, a polygon and a line no two may be given. -/
theorem C60_conflict (sq : K → K) (d : Dom K) (a : Args K)
    (h : (a.indices.isSome ∧ (a.center.isSome ∨ a.radius.isSome ∨ a.polygon.isSome ∨ a.line.isSome)) ∨
      ((a.center.isSome ∨ a.radius.isSome) ∧ (a.polygon.isSome ∨ a.line.isSome)) ∨ (a.polygon.isSome ∧ a.line.isSome)) :
    make sq d a = .error .assertion := by
  obtain ⟨i, pg, c, r, l, p, e⟩ := a
  cases i <;> cases pg <;> cases c <;> cases r <;> cases l <;> simp_all [make]

/-- C60, disagreement: a centre without radius (or a radius without centre) is not refused but gives the whole domain; and `poly` beside
another selection is ignored. -/
theorem C60_half_circle (sq : K → K) (d : Dom K) (c : Option (Pt K)) (r : Option K) (h : c.isNone ∨ r.isNone) (e : Bool) :
    make sq d { none' with center := c, radius := r, expand := e } = make sq d { none' with expand := e } := by
  cases c <;> cases r <;> simp_all [make, none']

/-! ### C61 -/

private theorem over_hit (p0 p1 : Pt K) (sides : List (Pt K × Pt K)) : ∀ s : Over, s.hit = true →
    (sides.foldl (overStep p0 p1) s).hit = true := by
  induction sides with
  | nil => exact fun s h => h
  | cons e es ih =>
    intro s h
    rw [List.foldl_cons]
    apply ih
    unfold overStep
    rw [if_pos h]
    exact h

private theorem over_side (p0 p1 : Pt K) (sides : List (Pt K × Pt K)) (e : Pt K × Pt K) (he : e ∈ sides) (h : Hit p0 p1 e) :
    ∀ s : Over, (sides.foldl (overStep p0 p1) s).hit = true := by
  induction sides with
  | nil => simp at he
  | cons f es ih =>
    intro s
    rw [List.foldl_cons]
    rcases List.mem_cons.1 he with rfl | he
    · apply over_hit
      unfold overStep
      split_ifs with h1 h2
      · exact h1
      · simp only
        rw [if_pos ⟨h.2.1.1, h.2.1.2, h.2.2.1, h.2.2.2⟩]
      · exact absurd h.1 h2
    · exact ih he _

private theorem over_poly (t : Tri K) (es : List (Pt K × Pt K)) :
    ∀ s : Over, (s.hit = true ∨ ∃ e ∈ es, ∃ f ∈ t.sides, Hit e.1 e.2 f) →
      (es.foldl (fun s e => t.sides.foldl (overStep e.1 e.2) s) s).hit = true := by
  induction es with
  | nil => rintro s (h | ⟨e, he, -⟩); exacts [h, by simp at he]
  | cons e es ih =>
    rintro s (h | ⟨e', he, f, hf, h⟩)
    · rw [List.foldl_cons]
      exact ih _ (Or.inl (over_hit _ _ _ _ h))
    · rw [List.foldl_cons]
      rcases List.mem_cons.1 he with rfl | he
      · exact ih _ (Or.inl (over_side _ _ _ f hf h _))
      · exact ih _ (Or.inr ⟨e', he, f, hf, h⟩)

/-- C61, part: `polygon_overlap` reports every triangle one of whose sides crosses a side of the polygon that is not parallel to it.
Missing: triangles inside the polygon and polygons inside a triangle, and that only overlapping triangles are reported; both are false,
see `C61_overlap_wrong`. -/
theorem C61_crossing_reported_partial (poly : List (Pt K)) (t : Tri K) (e f : Pt K × Pt K) (he : e ∈ edges poly)
    (hf : f ∈ t.sides) (hpar : (e.2.x - e.1.x) * (f.2.y - f.1.y) ≠ (e.2.y - e.1.y) * (f.2.x - f.1.x)) (p : Pt K)
    (h1 : OnSegment e.1 e.2 p) (h2 : OnSegment f.1 f.2 p) : triPoly poly t = true := by
  unfold triPoly
  refine over_poly t _ _ (Or.inr ⟨e, he, f, hf, ?_⟩)
  obtain ⟨s, s0, s1, sx, sy⟩ := h1
  obtain ⟨r, r0, r1, rx, ry⟩ := h2
  have hu : uDotTp e.1 e.2 f.1 f.2 ≠ 0 := by
    intro h
    apply hpar
    unfold uDotTp at h
    linear_combination -h
  have ha : paramA e.1 e.2 f.1 f.2 = s := by
    unfold paramA
    rw [div_eq_iff hu]
    unfold uDotTp
    have ex := sx.symm.trans rx
    have ey := sy.symm.trans ry
    linear_combination (f.2.y - f.1.y) * ex - (f.2.x - f.1.x) * ey
  have hw : (f.2.x - f.1.x) * -(e.2.y - e.1.y) + (f.2.y - f.1.y) * (e.2.x - e.1.x) ≠ 0 := by
    intro h
    apply hpar
    linear_combination h
  have hb : paramB e.1 e.2 f.1 f.2 = r := by
    unfold paramB
    rw [div_eq_iff hw]
    have ex := sx.symm.trans rx
    have ey := sy.symm.trans ry
    linear_combination (e.2.x - e.1.x) * ey - (e.2.y - e.1.y) * ex
  exact ⟨hu, by rw [ha]; exact ⟨s0, s1⟩, by rw [hb]; exact ⟨r0, r1⟩⟩

/-- C61 fails both ways: a triangle to the right of the square `[0, 6] × [0, 6]` is reported, and a triangle that contains the whole polygon is
not. -/
theorem C61_overlap_wrong :
    (∃ (t : Tri ℚ), (∀ p, t.Has p → 6 < p.x) ∧ polygonOverlap [t] [⟨0, 0⟩, ⟨6, 0⟩, ⟨6, 6⟩, ⟨0, 6⟩] = [0]) ∧
    (∃ (t : Tri ℚ) (poly : List (Pt ℚ)), poly.length = 3 ∧ (∀ v ∈ poly, t.Has v) ∧ polygonOverlap [t] poly = []) := by
  refine ⟨⟨⟨⟨14, 14⟩, ⟨12, 12⟩, ⟨12, 7⟩⟩, ?_, by decide +kernel⟩, ?_⟩
  · rintro p ⟨u, v, w, hu, hv, hw, hs, hx, -⟩
    simp only at hx
    rw [hx]
    nlinarith
  · refine ⟨⟨⟨-6, -13⟩, ⟨14, 1⟩, ⟨2, 19⟩⟩, [⟨0, 0⟩, ⟨6, 0⟩, ⟨0, 6⟩], rfl, ?_, by decide +kernel⟩
    have D : (⟨⟨-6, -13⟩, ⟨14, 1⟩, ⟨2, 19⟩⟩ : Tri ℚ).det = 528 := by decide +kernel
    intro v hv
    simp only [List.mem_cons, List.not_mem_nil, or_false] at hv
    have key : ∀ q : Pt ℚ, ∃ u v w : ℚ, u + v + w = 1 ∧ q.x = u * (-6) + v * 14 + w * 2 ∧ q.y = u * (-13) + v * 1 + w * 19 ∧
        528 * u = (2 - 14) * (q.y - 1) - (19 - 1) * (q.x - 14) ∧ 528 * v = (-6 - 2) * (q.y - 19) - (-13 - 19) * (q.x - 2) := by
      intro q
      refine ⟨((2 - 14) * (q.y - 1) - (19 - 1) * (q.x - 14)) / 528, ((-6 - 2) * (q.y - 19) - (-13 - 19) * (q.x - 2)) / 528,
        1 - ((2 - 14) * (q.y - 1) - (19 - 1) * (q.x - 14)) / 528 - ((-6 - 2) * (q.y - 19) - (-13 - 19) * (q.x - 2)) / 528,
        ?_, ?_, ?_, ?_, ?_⟩ <;> ring
    obtain ⟨u, w, z, h1, h2, h3, h4, h5⟩ := key v
    refine ⟨u, w, z, ?_, ?_, ?_, h1, h2, h3⟩ <;> rcases hv with rfl | rfl | rfl <;> simp only at h2 h3 h4 h5 <;> linarith

/-! ### Concrete cases -/

/-- Four triangles of the square `[0, 12] × [0, 12]` around its centre. -/
def square4 : Dom ℚ :=
  ⟨[⟨⟨0, 0⟩, ⟨12, 0⟩, ⟨6, 6⟩⟩, ⟨⟨12, 0⟩, ⟨12, 12⟩, ⟨6, 6⟩⟩, ⟨⟨12, 12⟩, ⟨0, 12⟩, ⟨6, 6⟩⟩, ⟨⟨0, 12⟩, ⟨0, 0⟩, ⟨6, 6⟩⟩],
    [⟨6, 2⟩, ⟨10, 6⟩, ⟨6, 10⟩, ⟨2, 6⟩], [true, true, false, true], false⟩

example : square4.Sized ∧ (∀ t ∈ square4.tris, t.det ≠ 0) := by
  refine ⟨⟨rfl, rfl⟩, ?_⟩
  unfold square4
  decide +kernel

example : (make id square4 { none' with center := some ⟨6, 9⟩, radius := some (6 : ℚ) }).toOption.map (fun r => (r.indices, r.fullIndices)) =
    some (some [1, 2, 3], [1, 3]) := by decide +kernel

example : (make id square4 { none' with polygon := some [⟨-1, 5⟩, ⟨7, 5⟩, ⟨7, 13⟩, ⟨-1, 13⟩] }).toOption.map
    (fun r => (r.indices, r.fullIndices)) = some (some [2, 3], [3]) := by decide +kernel

example : (make id square4 { none' with polygon := some [⟨-1, 5⟩, ⟨7, 5⟩, ⟨7, 13⟩, ⟨-1, 13⟩], expand := true }).toOption.map
    (fun r => (r.indices, r.fullIndices)) = some (some [0, 1, 2, 3], [0, 1, 3]) := by decide +kernel

example : (make id square4 { none' with line := some [⟨11, 1⟩, ⟨11, 12⟩] }).toOption.map (fun r => (r.indices, r.fullIndices)) =
    some (some [0, 1, 2], [0, 1]) := by decide +kernel

example : triPoly [(⟨0, 0⟩ : Pt ℚ), ⟨6, 0⟩, ⟨6, 6⟩, ⟨0, 6⟩] ⟨⟨5, 5⟩, ⟨9, 5⟩, ⟨5, 9⟩⟩ = true := by decide +kernel

end Verif.Region
