import Verif.SetQ.Model
import Verif.NodeAvg.Props
import Mathlib.Tactic.Linarith
import Mathlib.Tactic.Ring

/-!
# C34: setting a quantity, the stage and the elevation
-/

set_option linter.unusedSectionVars false

namespace Verif.SetQ

open Verif.NodeAvg

variable {K : Type*} [Field K] [LinearOrder K] [IsStrictOrderedRing K]

/-! ### Writing -/

theorem put_not_mem (ids : List ℕ) : ∀ (q : ℕ → K) (vs : List K) (k : ℕ), k ∉ ids → put q ids vs k = q k := by
  induction ids with
  | nil => intro q vs k _; cases vs <;> rfl
  | cons i is ih =>
    intro q vs k hk
    cases vs with
    | nil => rfl
    | cons v vs =>
      rw [List.mem_cons, not_or] at hk
      unfold put
      rw [ih _ _ _ hk.2, Function.update_of_ne hk.1]

theorem put_map (ids : List ℕ) (g : ℕ → K) : ∀ (q : ℕ → K) (k : ℕ), put q ids (ids.map g) k = if k ∈ ids then g k else q k := by
  induction ids with
  | nil => intro q k; simp [put]
  | cons i is ih =>
    intro q k
    rw [List.map_cons, put, ih]
    by_cases h : k ∈ is
    · simp [h]
    · by_cases hi : k = i
      · subst hi; simp [h]
      · simp [h, hi]

theorem zip_map (f : K → K → K) (ids : List ℕ) (g h : ℕ → K) :
    List.zipWith f (ids.map g) (ids.map h) = ids.map fun k => f (g k) (h k) := by
  rw [List.zipWith_map, List.zipWith_self]

/-- The value gives `g k` at the triangle `k` of the list (at its centroid). -/
def Gives (d : Dom K) (v : Value K) (ids : List ℕ) (t : K) (g : ℕ → K) : Prop :=
  v.get (centroidPts d ids) t = .many (ids.map g) ∨ ∃ c, v.get (centroidPts d ids) t = .one c ∧ g = fun _ => c

theorem Gives.go {d : Dom K} {v : Value K} {ids : List ℕ} {t : K} {g : ℕ → K} (h : Gives d v ids t g) :
    (v.get (centroidPts d ids) t).go ids.length = .values (ids.map g) := by
  rcases h with h | ⟨c, h, rfl⟩
  · rw [h]
    unfold Res.go spread
    match ids with
    | [] => simp
    | [i] => simp
    | i :: j :: is => simp
  · rw [h]
    simp [Res.go]

/-- The kinds of values that give a number everywhere: numbers, functions of time, of position, of both (elementwise). -/
theorem gives_kinds (d : Dom K) (ids : List ℕ) (t : K) :
    (∀ c, Gives d (.scalar c) ids t fun _ => c) ∧
    (∀ f : K → K, Gives d (.time fun t => .one (f t)) ids t fun _ => f t) ∧
    (∀ f : K → K → K, Gives d (.space fun ps => .many (ps.map fun p => f p.1 p.2)) ids t fun k => f (d.cx k) (d.cy k)) ∧
    (∀ f : K → K → K → K, Gives d (.both fun ps t => .many (ps.map fun p => f p.1 p.2 t)) ids t fun k => f (d.cx k) (d.cy k) t) := by
  refine ⟨fun c => Or.inr ⟨c, rfl, rfl⟩, fun f => Or.inr ⟨f t, rfl, rfl⟩, fun f => Or.inl ?_, fun f => Or.inl ?_⟩
  · simp [Value.get, centroidPts, List.map_map, Function.comp_def]
  · simp [Value.get, centroidPts, List.map_map, Function.comp_def]

/-! ### Quantities and the stage -/

/-- C34: `Set_quantity` gives the triangles of its region the value and leaves the others alone. -/
theorem C34_quantity (d : Dom K) (v : Value K) (indices : Option (List ℕ)) (t : K) (q g : ℕ → K)
    (h : Gives d v (cells d indices) t g) :
    ∃ q', setQuantity d v indices t q = some q' ∧ ∀ k, (k ∈ cells d indices → q' k = g k) ∧ (k ∉ cells d indices → q' k = q k) := by
  unfold setQuantity
  simp only [h.go]
  refine ⟨_, rfl, fun k => ?_⟩
  rw [put_map]
  exact ⟨fun hk => if_pos hk, fun hk => if_neg hk⟩

/-- C34: a value array with a single element counts as that number, in all three setters. -/
theorem C34_single_element (d : Dom K) (f : List (K × K) → K → K) (indices : Option (List ℕ)) (nodeIds vols : List ℕ) (t : K) (s : State K)
    (q : ℕ → K) :
    let v : Value K := .both fun pts t => .many [f pts t]
    let w : Value K := .both fun pts t => .one (f pts t)
    setQuantity d v indices t q = setQuantity d w indices t q ∧ setStage d v indices t s = setStage d w indices t s ∧
    setElevation d (some v) indices nodeIds vols t s = setElevation d (some w) indices nodeIds vols t s := by
  have key : ∀ (c : K) n, (Res.many [c]).go n = (Res.one c).go n := fun c n => rfl
  refine ⟨?_, ?_, ?_⟩
  · unfold setQuantity Value.get; simp only [key]
  · unfold setStage Value.get; simp only [key]
  · unfold setElevation Value.get; simp only [key]

/-- C34: `Set_stage` gives the triangles of its region the higher of value and bed, so their depth is not negative; it leaves the others,
and everything else, alone. -/
theorem C34_stage (d : Dom K) (v : Value K) (indices : Option (List ℕ)) (t : K) (s : State K) (g : ℕ → K)
    (h : Gives d v (cells d indices) t g) :
    ∃ q, setStage d v indices t s = some { s with stage := q } ∧
      ∀ k, (k ∈ cells d indices → (q k = g k ∨ q k = s.elev k) ∧ g k ≤ q k ∧ s.elev k ≤ q k) ∧
        (k ∉ cells d indices → q k = s.stage k) := by
  unfold setStage
  by_cases hi : indices = some []
  · rw [if_pos hi]
    refine ⟨s.stage, rfl, fun k => ⟨fun hk => ?_, fun _ => rfl⟩⟩
    rw [hi] at hk
    simp [cells] at hk
  · rw [if_neg hi]
    simp only [h.go]
    refine ⟨_, rfl, fun k => ?_⟩
    rw [zip_map, put_map]
    refine ⟨fun hk => ?_, fun hk => if_neg hk⟩
    rw [if_pos hk]
    refine ⟨?_, le_max_right _ _, le_max_left _ _⟩
    rcases le_total (s.elev k) (g k) with h1 | h1
    · left; exact max_eq_right h1
    · right; exact max_eq_left h1

/-- C34: a value that cannot be evaluated (`ValueError`, or an array of the wrong length) silently leaves everything as it was, for all
the setters. -/
theorem C34_unusable_value (d : Dom K) (v : Value K) (indices : Option (List ℕ)) (nodeIds vols : List ℕ) (t : K) (s : State K) (q : ℕ → K)
    (h : ∀ pts, v.get pts t = .valueError ∨ ∃ vs, v.get pts t = .many vs ∧ vs.length ≠ 1 ∧ vs.length ≠ pts.length) :
    setQuantity d v indices t q = some q ∧ setStage d v indices t s = some s ∧
    setElevation d (some v) indices nodeIds vols t s = some s := by
  have key : ∀ pts : List (K × K), (v.get pts t).go pts.length = .skip := by
    intro pts
    rcases h pts with h | ⟨vs, h, h1, h2⟩
    · rw [h]; rfl
    · rw [h]
      unfold Res.go spread
      match vs, h1 with
      | [], _ => simp at h2; simp [h2]
      | [x], h1 => simp at h1
      | x :: y :: vs, _ => simp only [if_neg h2]
  have k1 := key (centroidPts d (cells d indices))
  have k2 := key (vertexPts d (cells d indices))
  simp only [centroidPts, vertexPts, List.length_map] at k1 k2
  refine ⟨?_, ?_, ?_⟩
  · simp [setQuantity, centroidPts, k1]
  · simp [setStage, centroidPts, k1]
  · unfold setElevation
    by_cases hd : d.discontinuous = true
    · simp [hd, centroidPts, k1]
    · simp [hd, vertexPts, k2]

/-- C34, disagreement: `Set_stage_operator` is a `Set_quantity` operator, so it puts the surface below the bed. -/
theorem C34_stage_operator_below_bed (d : Dom K) (indices : Option (List ℕ)) (t c : K) (s : State K) (k : ℕ)
    (hk : k ∈ cells d indices) (hc : c < s.elev k) :
    ∃ s', setStageOperator d (.scalar c) indices t s = some s' ∧ s'.stage k - s'.elev k < 0 := by
  obtain ⟨q, h1, h2⟩ := C34_quantity d (.scalar c) indices t s.stage _ ((gives_kinds d (cells d indices) t).1 c)
  refine ⟨{ s with stage := q }, by unfold setStageOperator; rw [h1]; rfl, ?_⟩
  simp only
  rw [(h2 k).1 hk]
  linarith

/-! ### Elevation -/

/-- C34: setting the elevation keeps the water depth of every triangle and the momenta, in both representations of the bed, whatever the value
and whether or not node and triangle lists are right. -/
theorem C34_depth_kept (d : Dom K) (v : Option (Value K)) (indices : Option (List ℕ)) (nodeIds vols : List ℕ) (t : K) (s s' : State K)
    (h : setElevation d v indices nodeIds vols t s = some s') :
    (∀ k, s'.stage k - s'.elev k = s.stage k - s.elev k) ∧ s'.xmom = s.xmom ∧ s'.ymom = s.ymom := by
  have key : ∀ (ids : List ℕ) (vs : List K) (k : ℕ),
      put s.stage ids (List.zipWith (· + ·) (ids.map (put s.elev ids vs)) (ids.map fun k => s.stage k - s.elev k)) k - put s.elev ids vs k =
        s.stage k - s.elev k := by
    intro ids vs k
    rw [zip_map, put_map]
    split_ifs with hk
    · ring
    · rw [put_not_mem _ _ _ _ hk]
  cases v with
  | none => cases h; exact ⟨fun _ => rfl, rfl, rfl⟩
  | some v =>
    unfold setElevation at h
    simp only at h
    by_cases hd : d.discontinuous = true
    · rw [if_pos hd] at h
      cases hg : (v.get (centroidPts d (cells d indices)) t).go (cells d indices).length with
      | raise => rw [hg] at h; simp at h
      | skip => rw [hg] at h; cases h; exact ⟨fun _ => rfl, rfl, rfl⟩
      | values vs =>
        rw [hg] at h
        simp only [Option.some.injEq] at h
        subst h
        exact ⟨fun k => key _ _ k, rfl, rfl⟩
    · rw [if_neg hd] at h
      cases hg : (v.get (vertexPts d (cells d indices)) t).go (corners (cells d indices)).length with
      | raise => rw [hg] at h; simp at h
      | skip => rw [hg] at h; cases h; exact ⟨fun _ => rfl, rfl, rfl⟩
      | values vs =>
        rw [hg] at h
        cases indices with
        | none =>
          simp only [Option.some.injEq] at h
          subst h
          exact ⟨fun k => key _ _ k, rfl, rfl⟩
        | some idx =>
          simp only [Option.some.injEq] at h
          subst h
          exact ⟨fun k => key _ _ k, rfl, rfl⟩

/-- C34: hence the water volume of any set of triangles is kept. -/
theorem C34_volume_kept (d : Dom K) (v : Option (Value K)) (indices : Option (List ℕ)) (nodeIds vols : List ℕ) (t : K) (s s' : State K)
    (h : setElevation d v indices nodeIds vols t s = some s') (area : ℕ → K) (T : Finset ℕ) :
    ∑ k ∈ T, area k * (s'.stage k - s'.elev k) = ∑ k ∈ T, area k * (s.stage k - s.elev k) :=
  Finset.sum_congr rfl fun k _ => by rw [(C34_depth_kept d v indices nodeIds vols t s s' h).1 k]

/-- C34: with discontinuous elevation the bed of the region's triangles gets the value, the other triangles stay. -/
theorem C34_discontinuous (d : Dom K) (hd : d.discontinuous = true) (v : Value K) (indices : Option (List ℕ)) (nodeIds vols : List ℕ)
    (t : K) (s : State K) (g : ℕ → K) (h : Gives d v (cells d indices) t g) :
    ∃ s', setElevation d (some v) indices nodeIds vols t s = some s' ∧
      ∀ k, (k ∈ cells d indices → s'.elev k = g k) ∧
        (k ∉ cells d indices → s'.elev k = s.elev k ∧ s'.stage k = s.stage k) := by
  unfold setElevation
  simp only [hd, if_true, h.go]
  refine ⟨_, rfl, fun k => ⟨fun hk => ?_, fun hk => ?_⟩⟩
  · simp only; rw [put_map, if_pos hk]
  · exact ⟨by simp only; rw [put_map, if_neg hk], by simp only; rw [put_not_mem _ _ _ _ hk]⟩

/-! #### Continuous elevation -/

theorem mem_corners (ids : List ℕ) (c : ℕ) : c ∈ corners ids ↔ c / 3 ∈ ids := by
  unfold corners
  rw [List.mem_flatMap]
  constructor
  · rintro ⟨k, hk, h⟩
    simp only [List.mem_cons, List.not_mem_nil, or_false] at h
    have : c / 3 = k := by omega
    rwa [this]
  · intro h
    refine ⟨c / 3, h, ?_⟩
    simp only [List.mem_cons, List.not_mem_nil, or_false]
    omega

/-- The slice of `vertex_value_indices` that belongs to a node. -/
def slice (d : Dom K) (nid : ℕ) : List ℕ := (List.range (perNode d.flat nid)).map fun j => d.vvi.getD (nodeIndex d.flat nid + j) 0

theorem slice_eq (d : Dom K) (ha : IsArgsort d.flat d.vvi) (nid : ℕ) : slice d nid = at_ (nodeOf d.flat) d.vvi nid := by
  unfold slice
  apply List.ext_getElem
  · rw [List.length_map, List.length_range, at_length d.flat d.vvi ha]
  · intro j h1 h2
    rw [List.length_map, List.length_range] at h1
    rw [List.getElem_map, List.getElem_range]
    exact (block_eq d.flat d.vvi ha nid j h1).2

theorem mem_slice (d : Dom K) (ha : IsArgsort d.flat d.vvi) (nid c : ℕ) : c ∈ slice d nid ↔ d.flat[c]? = some nid := by
  rw [slice_eq d ha]
  unfold at_
  simp only [List.mem_filter, decide_eq_true_eq, ha.perm.mem_iff, List.mem_range]
  constructor
  · rintro ⟨h1, h2⟩; exact (nodeOf_eq h1 nid).mp h2
  · intro h1
    have hc := (List.getElem?_eq_some_iff.mp h1).1
    exact ⟨hc, (nodeOf_eq hc nid).mpr h1⟩

theorem levelNode_apply (d : Dom K) (ha : IsArgsort d.flat d.vvi) (ev : ℕ → K) (nid c : ℕ) :
    levelNode d ev nid c = if d.flat[c]? = some nid then cornerMean d.flat ev nid else ev c := by
  have : levelNode d ev nid = put ev (slice d nid) ((slice d nid).map fun _ => cornerMean d.flat ev nid) := by
    unfold levelNode cornerMean
    rw [card_cornersAt, ← at_sum d.flat d.vvi ha, ← slice_eq d ha]
    rfl
  rw [this, put_map]
  simp only [mem_slice d ha]

theorem level_all (d : Dom K) (ha : IsArgsort d.flat d.vvi) (nodeIds : List ℕ) (hn : nodeIds.Nodup) : ∀ (ev : ℕ → K) (c : ℕ),
    (∀ v, d.flat[c]? = some v → v ∈ nodeIds → nodeIds.foldl (levelNode d) ev c = cornerMean d.flat ev v) ∧
    ((∀ v ∈ nodeIds, d.flat[c]? ≠ some v) → nodeIds.foldl (levelNode d) ev c = ev c) := by
  induction nodeIds with
  | nil => intro ev c; simp
  | cons u us ih =>
    intro ev c
    rw [List.nodup_cons] at hn
    rw [List.foldl_cons]
    obtain ⟨h1, h2⟩ := ih hn.2 (levelNode d ev u) c
    constructor
    · intro v hv hm
      rcases List.mem_cons.1 hm with rfl | hm
      · rw [h2, levelNode_apply d ha, if_pos hv]
        intro w hw hc
        rw [hv] at hc
        cases hc
        exact hn.1 hw
      · rw [h1 v hv hm]
        unfold cornerMean
        congr 1
        apply Finset.sum_congr rfl
        intro c' hc'
        rw [mem_cornersAt] at hc'
        rw [levelNode_apply d ha, if_neg]
        rw [hc']
        intro h
        cases h
        exact hn.1 hm
    · intro h
      rw [h2 fun v hv => h v (List.mem_cons_of_mem _ hv), levelNode_apply d ha, if_neg (h u (by simp))]

theorem mem_vols (d : Dom K) (ha : IsArgsort d.flat d.vvi) (nodeIds vols : List ℕ) (hv : IsVols d nodeIds vols) (k : ℕ) :
    k ∈ vols ↔ ∃ c, c / 3 = k ∧ ∃ v ∈ nodeIds, d.flat[c]? = some v := by
  rw [hv.2]
  unfold volIds
  rw [List.mem_flatMap]
  constructor
  · rintro ⟨v, hv, h⟩
    rw [List.mem_map] at h
    obtain ⟨j, hj, rfl⟩ := h
    refine ⟨_, rfl, v, hv, (mem_slice d ha v _).1 ?_⟩
    exact List.mem_map.2 ⟨j, hj, rfl⟩
  · rintro ⟨c, rfl, v, hv, hc⟩
    refine ⟨v, hv, ?_⟩
    obtain ⟨j, hj, rfl⟩ := List.mem_map.1 ((mem_slice d ha v c).2 hc)
    exact List.mem_map.2 ⟨j, hj, rfl⟩

theorem midpoint_eq (ev : ℕ → K) (k : ℕ) :
    midpoint ev (3 * k) = (ev (3 * k + 1) + ev (3 * k + 2)) / 2 ∧
    midpoint ev (3 * k + 1) = (ev (3 * k + 2) + ev (3 * k)) / 2 ∧
    midpoint ev (3 * k + 2) = (ev (3 * k) + ev (3 * k + 1)) / 2 := by
  have a1 : 3 * k % 3 = 0 := by omega
  have a2 : 3 * k / 3 = k := by omega
  have b1 : (3 * k + 1) % 3 = 1 := by omega
  have b2 : (3 * k + 1) / 3 = k := by omega
  have c1 : (3 * k + 2) % 3 = 2 := by omega
  have c2 : (3 * k + 2) / 3 = k := by omega
  refine ⟨?_, ?_, ?_⟩
  · simp only [midpoint, a1, a2]; ring
  · simp only [midpoint, b1, b2]; ring
  · simp only [midpoint, c1, c2]; ring

/-- The bed is continuous: corners at one node agree. -/
def Continuous (d : Dom K) (ev : ℕ → K) : Prop := ∀ c c' v, d.flat[c]? = some v → d.flat[c']? = some v → ev c = ev c'

/-- Triangle `k` has a node of the region. -/
def Touches (d : Dom K) (idx : List ℕ) (k : ℕ) : Prop :=
  ∃ c c' v, c / 3 = k ∧ c' / 3 ∈ idx ∧ d.flat[c]? = some v ∧ d.flat[c']? = some v

/-- C34: with continuous elevation, setting the bed of a region by `f`: every node of the region gets the mean of `f` (over corners of triangles
inside the region) and old values (over corners outside), nodes surrounded by the region get `f`; all corners at one node agree if they did before;
bed centroid and edge values of all triangles that touch the region are means and midpoints of the new corner values, other triangles do
not change at all. -/
theorem C34_continuous (d : Dom K) (hd : d.discontinuous = false) (ha : IsArgsort d.flat d.vvi) (v : Value K) (idx nodeIds vols : List ℕ)
    (hn : IsNodeIds d idx nodeIds) (hv : IsVols d nodeIds vols) (t : K) (s : State K) (f : K → K → K)
    (hf : v.get (vertexPts d idx) t = .many ((vertexPts d idx).map fun p => f p.1 p.2) ∨
      ∃ c, v.get (vertexPts d idx) t = .one c ∧ f = fun _ _ => c) :
    ∃ s', setElevation d (some v) (some idx) nodeIds vols t s = some s' ∧
      (∀ c u, d.flat[c]? = some u → (∃ c', c' / 3 ∈ idx ∧ d.flat[c']? = some u) →
        s'.ev c = cornerMean d.flat (fun c => if c / 3 ∈ idx then f (d.vx c) (d.vy c) else s.ev c) u) ∧
      (∀ c u, d.flat[c]? = some u → (¬ ∃ c', c' / 3 ∈ idx ∧ d.flat[c']? = some u) → s'.ev c = s.ev c) ∧
      (Continuous d s.ev → Continuous d s'.ev) ∧
      (∀ k, Touches d idx k → s'.elev k = (s'.ev (3 * k) + s'.ev (3 * k + 1) + s'.ev (3 * k + 2)) / 3 ∧ s'.ee (3 * k) = (s'.ev (3 * k + 1) + s'.ev (3 * k + 2)) / 2 ∧
        s'.ee (3 * k + 1) = (s'.ev (3 * k + 2) + s'.ev (3 * k)) / 2 ∧ s'.ee (3 * k + 2) = (s'.ev (3 * k) + s'.ev (3 * k + 1)) / 2) ∧
      (∀ k, ¬ Touches d idx k → s'.elev k = s.elev k ∧ s'.stage k = s.stage k ∧ ∀ e < 3, s'.ee (3 * k + e) = s.ee (3 * k + e)) := by
  have hgo : (v.get (vertexPts d idx) t).go (corners idx).length =
      .values ((corners idx).map fun c => f (d.vx c) (d.vy c)) := by
    rcases hf with h | ⟨c, h, rfl⟩
    · rw [h]
      unfold Res.go spread vertexPts
      rw [List.map_map]
      generalize corners idx = l
      match l with
      | [] => simp
      | [i] => simp
      | i :: j :: is => simp
    · rw [h]; simp [Res.go]
  have hev : put s.ev (corners idx) ((corners idx).map fun c => f (d.vx c) (d.vy c)) =
      fun c => if c / 3 ∈ idx then f (d.vx c) (d.vy c) else s.ev c := by
    funext c
    rw [put_map]
    simp only [mem_corners]
  have hnode : ∀ u, u ∈ nodeIds ↔ ∃ c', c' / 3 ∈ idx ∧ d.flat[c']? = some u := by
    intro u
    rw [hn.2 u]
    simp only [mem_corners]
  have hvol : ∀ k, k ∈ vols ↔ Touches d idx k := by
    intro k
    rw [mem_vols d ha nodeIds vols hv]
    unfold Touches
    constructor
    · rintro ⟨c, hc, u, hu, hcu⟩
      obtain ⟨c', h1, h2⟩ := (hnode u).1 hu
      exact ⟨c, c', u, hc, h1, hcu, h2⟩
    · rintro ⟨c, c', u, hc, h1, hcu, h2⟩
      exact ⟨c, hc, u, (hnode u).2 ⟨c', h1, h2⟩, hcu⟩
  unfold setElevation
  simp only [hd, Bool.false_eq_true, if_false, cells, Option.getD_some, hgo, hev]
  refine ⟨_, rfl, ?_, ?_, ?_, ?_, ?_⟩
  · intro c u hc hu
    exact (level_all d ha nodeIds hn.1 _ c).1 u hc ((hnode u).2 hu)
  · intro c u hc hu
    simp only
    rw [(level_all d ha nodeIds hn.1 _ c).2]
    · rw [if_neg fun h => hu ⟨c, h, hc⟩]
    · intro w hw hcw
      rw [hc] at hcw
      cases hcw
      exact hu ((hnode _).1 hw)
  · intro hcont c c' u hc hc'
    simp only
    by_cases hu : u ∈ nodeIds
    · rw [(level_all d ha nodeIds hn.1 _ c).1 u hc hu, (level_all d ha nodeIds hn.1 _ c').1 u hc' hu]
    · have hno : ∀ c : ℕ, d.flat[c]? = some u → ∀ w ∈ nodeIds, d.flat[c]? ≠ some w := by
        intro c hc w hw hcw
        rw [hc] at hcw
        cases hcw
        exact hu hw
      have hout : ∀ c : ℕ, d.flat[c]? = some u → ¬ c / 3 ∈ idx := fun c hc h => hu ((hnode u).2 ⟨c, h, hc⟩)
      rw [(level_all d ha nodeIds hn.1 _ c).2 (hno c hc), (level_all d ha nodeIds hn.1 _ c').2 (hno c' hc'),
        if_neg (hout c hc), if_neg (hout c' hc')]
      exact hcont c c' u hc hc'
  · intro k hk
    have hk' := (hvol k).2 hk
    have hm : ∀ e, e < 3 → 3 * k + e ∈ corners vols := by
      intro e he
      rw [mem_corners]
      have : (3 * k + e) / 3 = k := by omega
      rwa [this]
    refine ⟨by simp only; rw [put_map, if_pos hk']; rfl, ?_, ?_, ?_⟩
    · simp only
      rw [put_map, if_pos (by simpa using hm 0 (by omega))]
      exact (midpoint_eq _ k).1
    · simp only
      rw [put_map, if_pos (hm 1 (by omega))]
      exact (midpoint_eq _ k).2.1
    · simp only
      rw [put_map, if_pos (hm 2 (by omega))]
      exact (midpoint_eq _ k).2.2
  · intro k hk
    have hk' : k ∉ vols := fun h => hk ((hvol k).1 h)
    refine ⟨by simp only; rw [put_not_mem _ _ _ _ hk'], by simp only; rw [put_not_mem _ _ _ _ hk'], fun e he => ?_⟩
    simp only
    rw [put_not_mem]
    rw [mem_corners]
    have : (3 * k + e) / 3 = k := by omega
    rwa [this]

/-- C34: so a node whose triangles all belong to the region gets exactly the value. -/
theorem C34_continuous_inside (d : Dom K) (idx : List ℕ) (f : K → K → K) (ev : ℕ → K) (u : ℕ) (x y : K) (hu : u ∈ d.flat)
    (hxy : ∀ c, d.flat[c]? = some u → c / 3 ∈ idx ∧ d.vx c = x ∧ d.vy c = y) :
    cornerMean d.flat (fun c => if c / 3 ∈ idx then f (d.vx c) (d.vy c) else ev c) u = f x y := by
  unfold cornerMean
  have : ∀ c ∈ cornersAt d.flat u, (if c / 3 ∈ idx then f (d.vx c) (d.vy c) else ev c) = f x y := by
    intro c hc
    rw [mem_cornersAt] at hc
    obtain ⟨h1, h2, h3⟩ := hxy c hc
    rw [if_pos h1, h2, h3]
  rw [Finset.sum_congr rfl this, Finset.sum_const, nsmul_eq_mul]
  have hne : ((cornersAt d.flat u).card : K) ≠ 0 := by
    rw [card_cornersAt, Nat.cast_ne_zero]
    exact Nat.pos_iff_ne_zero.mp (List.count_pos_iff.mpr hu)
  rw [mul_comm, mul_div_assoc, div_self hne, mul_one]

/-- C34: with continuous elevation and vertex averaging, setting the bed of the whole domain by a function of position gives every corner the
function's value there (nodes numbered without gaps, corners at one node at one place). -/
theorem C34_continuous_everywhere (d : Dom K) (hd : d.discontinuous = false) (hc : d.centroidAvg = false) (ha : IsArgsort d.flat d.vvi)
    (hg : NoGaps d.flat) (hn : ∀ u ∈ d.flat, u < d.nodes) (hl : d.flat.length = 3 * d.n)
    (hxy : ∀ c c' u, d.flat[c]? = some u → d.flat[c']? = some u → d.vx c = d.vx c' ∧ d.vy c = d.vy c')
    (v : Value K) (nodeIds vols : List ℕ) (t : K) (s : State K) (f : K → K → K)
    (hf : v.get (vertexPts d (List.range d.n)) t = .many ((vertexPts d (List.range d.n)).map fun p => f p.1 p.2) ∨
      ∃ c, v.get (vertexPts d (List.range d.n)) t = .one c ∧ f = fun _ _ => c) :
    ∃ s', setElevation d (some v) none nodeIds vols t s = some s' ∧
      (∀ c < d.flat.length, s'.ev c = f (d.vx c) (d.vy c)) ∧
      (∀ k < d.n, s'.elev k = (s'.ev (3 * k) + s'.ev (3 * k + 1) + s'.ev (3 * k + 2)) / 3) := by
  have hgo : (v.get (vertexPts d (List.range d.n)) t).go (corners (List.range d.n)).length =
      .values ((corners (List.range d.n)).map fun c => f (d.vx c) (d.vy c)) := by
    rcases hf with h | ⟨c, h, rfl⟩
    · rw [h]
      unfold Res.go spread vertexPts
      rw [List.map_map]
      generalize corners (List.range d.n) = l
      match l with
      | [] => simp
      | [i] => simp
      | i :: j :: is => simp
    · rw [h]; simp [Res.go]
  unfold setElevation
  simp only [hd, Bool.false_eq_true, if_false, cells, Option.getD_none, hgo]
  refine ⟨_, rfl, ?_, ?_⟩
  · intro c hclt
    simp only
    obtain ⟨u, hu⟩ : ∃ u, d.flat[c]? = some u := ⟨_, List.getElem?_eq_getElem hclt⟩
    have hs : ∀ ev, smoothElev d s.elev ev = smooth d.flat d.vvi d.nodes ev := by
      intro ev
      unfold smoothElev smooth
      rw [hc]
      rfl
    rw [hs, (C08_smooth d.flat d.vvi ha hg d.nodes hn _).1 c u hu]
    have := C34_continuous_inside d (List.range d.n) f s.ev u (d.vx c) (d.vy c) (List.mem_of_getElem? hu) (fun c' hc' => by
      refine ⟨?_, hxy c' c u hc' hu⟩
      have := (List.getElem?_eq_some_iff.1 hc').1
      rw [List.mem_range]
      omega)
    rw [← this]
    congr 1
    funext c'
    rw [put_map]
    simp only [mem_corners]
  · intro k hk
    simp only
    rw [put_map, if_pos (List.mem_range.2 hk)]
    rfl

/-- C34, disagreement: if a domain with centroid averaging (all discontinuous flow algorithms turn it on) is switched to continuous elevation, setting the bed of
the whole domain ignores the value: any two values give the same bed. -/
theorem C34_whole_domain_ignores_value (d : Dom K) (hd : d.discontinuous = false) (hc : d.centroidAvg = true) (ha : IsArgsort d.flat d.vvi)
    (hn : ∀ u ∈ d.flat, u < d.nodes) (hl : d.flat.length = 3 * d.n) (a b : K) (nodeIds vols : List ℕ) (t : K) (s : State K) :
    ∃ s1 s2, setElevation d (some (.scalar a)) none nodeIds vols t s = some s1 ∧
      setElevation d (some (.scalar b)) none nodeIds vols t s = some s2 ∧
      (∀ c < d.flat.length, s1.ev c = s2.ev c) ∧ ∀ k < d.n, s1.elev k = s2.elev k ∧ s1.stage k = s2.stage k := by
  have key : ∀ ev c, c < d.flat.length →
      smoothElev d s.elev ev c = nodeAverageCentroid d.flat d.vvi s.elev (nodeOf d.flat c) := by
    intro ev c hclt
    unfold smoothElev
    rw [hc]
    simp only [if_true]
    have hu : d.flat[c]? = some (nodeOf d.flat c) := (nodeOf_eq hclt _).1 rfl
    apply (C08_set_node_values d.flat d.vvi ha _ _ ev c).1
    · exact ⟨_, hu, List.mem_map.2 ⟨_, List.mem_range.2 (hn _ (List.mem_of_getElem? hu)), rfl⟩⟩
    · rw [List.map_map]
      simpa [Function.comp_def] using List.nodup_range
  have hgo : ∀ c : K, ((Value.scalar c).get (vertexPts d (List.range d.n)) t).go (corners (List.range d.n)).length =
      .values ((corners (List.range d.n)).map fun _ => c) := by
    intro c
    simp [Value.get, Res.go]
  unfold setElevation
  simp only [hd, Bool.false_eq_true, if_false, cells, Option.getD_none, hgo]
  refine ⟨_, _, rfl, rfl, ?_, ?_⟩
  · intro c hclt
    simp only
    rw [key _ c hclt, key _ c hclt]
  · intro k hk
    have hm : ∀ ev ev', vertexMean (smoothElev d s.elev ev) k = vertexMean (smoothElev d s.elev ev') k := by
      intro ev ev'
      unfold vertexMean
      rw [key ev _ (by omega), key ev _ (by omega), key ev _ (by omega), key ev' _ (by omega), key ev' _ (by omega),
        key ev' _ (by omega)]
    refine ⟨?_, ?_⟩
    · simp only
      rw [put_map, put_map, if_pos (List.mem_range.2 hk), if_pos (List.mem_range.2 hk)]
      exact hm _ _
    · simp only
      rw [zip_map, zip_map, put_map, put_map, if_pos (List.mem_range.2 hk), if_pos (List.mem_range.2 hk), put_map, put_map,
        if_pos (List.mem_range.2 hk), if_pos (List.mem_range.2 hk), hm _ _]

/-- C34: no value (`None`) and an empty region change nothing (the latter for values that can be evaluated on no points). -/
theorem C34_nothing (d : Dom K) (indices : Option (List ℕ)) (nodeIds vols : List ℕ) (t : K) (s : State K) (c : K) :
    setElevation d none indices nodeIds vols t s = some s ∧ setElevation d (some (.scalar c)) (some []) [] [] t s = some s ∧
    setStage d (.scalar c) (some []) t s = some s ∧ setQuantity d (.scalar c) (some []) t s.stage = some s.stage := by
  refine ⟨rfl, ?_, rfl, rfl⟩
  unfold setElevation
  by_cases hd : d.discontinuous = true
  · simp [hd, cells, Value.get, Res.go, put]
  · simp [hd, cells, Value.get, Res.go, put, corners]

/-! ### Samples: the unit square cut into two triangles -/

/-- Triangles `(0, 1, 2)` and `(2, 1, 3)` over the nodes `(0,0), (1,0), (0,1), (1,1)`. -/
def square (disc avg : Bool) : Dom ℚ where
  n := 2
  flat := [0, 1, 2, 2, 1, 3]
  vvi := [0, 4, 1, 2, 3, 5]
  nodes := 4
  cx := fun k => [1 / 3, 2 / 3].getD k 0
  cy := fun k => [1 / 3, 2 / 3].getD k 0
  vx := fun c => [0, 1, 0, 0, 1, 1].getD c 0
  vy := fun c => [0, 0, 1, 1, 0, 1].getD c 0
  discontinuous := disc
  centroidAvg := avg

/-- Level 2 over a flat bed 1. -/
def pond : State ℚ := ⟨fun _ => 2, fun _ => 1, fun _ => 0, fun _ => 0, fun _ => 1, fun _ => 1⟩

example : IsArgsort (square false false).flat (square false false).vvi := ⟨by decide, by decide⟩

example : NoGaps (square false false).flat ∧ ∀ u ∈ (square false false).flat, u < (square false false).nodes := by
  refine ⟨?_, by decide⟩
  intro v w hw hle
  simp [square] at hw ⊢
  omega

/-- Region of triangle 0: nodes 0, 1, 2; both triangles touch it. -/
example : IsNodeIds (square false false) [0] [2, 0, 1] ∧ IsVols (square false false) [2, 0, 1] [0, 1] := by
  refine ⟨⟨by decide, fun v => ?_⟩, by decide, fun k => ?_⟩
  · simp [square, corners]; omega
  · have : volIds (square false false) [2, 0, 1] = [0, 1, 0, 1, 0] := by decide +kernel
    rw [this]
    simp; omega

/-- Raising triangle 0 to bed 4: node 0 gets 4, the shared nodes 1 and 2 get the mean of 4 and 1, node 3 stays; depth 1 is kept. -/
example : ((setElevation (square false false) (some (.scalar 4)) (some [0]) [2, 0, 1] [0, 1] 0 pond).map fun s =>
    ((List.range 6).map s.ev, (List.range 2).map s.elev, (List.range 2).map s.stage)) =
    some ([4, 5 / 2, 5 / 2, 5 / 2, 5 / 2, 1], [3, 2], [4, 3]) := by decide +kernel

/-- Discontinuous bed: only triangle 0 moves. -/
example : ((setElevation (square true true) (some (.scalar 4)) (some [0]) [] [] 0 pond).map fun s =>
    ((List.range 2).map s.elev, (List.range 2).map s.stage)) = some ([4, 1], [5, 2]) := by decide +kernel

/-- Whole domain, bed `x + y`. -/
example : ((setElevation (square false false) (some (.space fun ps => .many (ps.map fun p => p.1 + p.2))) none [] [] 0 pond).map fun s =>
    ((List.range 6).map s.ev, (List.range 2).map s.stage)) = some ([0, 1, 1, 1, 1, 2], [5 / 3, 7 / 3]) := by decide +kernel

/-- The same with centroid averaging left on: the bed stays 1. -/
example : ((setElevation (square false true) (some (.space fun ps => .many (ps.map fun p => p.1 + p.2))) none [] [] 0 pond).map fun s =>
    ((List.range 6).map s.ev, (List.range 2).map s.stage)) = some ([1, 1, 1, 1, 1, 1], [2, 2]) := by decide +kernel

/-- `Set_stage` to `3 x` on both triangles: the first would fall onto the bed (to 1), the second gets 2. -/
example : ((setStage (square true true) (.space fun ps => .many (ps.map fun p => 3 * p.1)) none 0 pond).map fun s =>
    (List.range 2).map s.stage) = some [1, 2] := by decide +kernel

/-- `Set_stage_operator` to 0 on triangle 1: one below the bed. -/
example : ((setStageOperator (square true true) (.scalar 0) (some [1]) 0 pond).map fun s =>
    (List.range 2).map fun k => s.stage k - s.elev k) = some [1, -1] := by decide +kernel

/-- A value for three points on two triangles is dropped silently. -/
example : ((setStage (square true true) (.time fun _ => .many [5, 6, 7]) none 0 pond).map fun s =>
    (List.range 2).map s.stage) = some [2, 2] := by decide +kernel

end Verif.SetQ
