import Verif.Erode.Lemmas

/-!
# C94: erosion operators
-/

set_option linter.unusedSectionVars false

namespace Verif.Erode

open Verif.SetQ Verif.NodeAvg

variable {K : Type*} [Field K] [LinearOrder K] [IsStrictOrderedRing K]

/-! ### Water -/

/-- C94: no erosion operator makes or loses water or momentum, whatever the state, and whatever lists of nodes and triangles it uses. -/
theorem C94_water (sq : K → K) (d : Dom K) (l : Limits K) (factor : K) (slope : ℕ → K) (p : Dune K) (value : Option K)
    (ids nodeIds vols : List ℕ) (dt : K) (s : State K) :
    SameWater s (shear sq d l factor slope ids nodeIds vols dt s) ∧ SameWater s (slice d value ids nodeIds vols s) ∧
    SameWater s (fillSlice d value ids nodeIds vols s) ∧ (∀ s', dune sq d p ids dt s = some s' → SameWater s s') ∧
    (∀ s', erosion sq d l ids nodeIds vols dt s = some s' → SameWater s s') := by
  have refl : SameWater s s := ⟨fun _ => rfl, rfl, rfl⟩
  refine ⟨?_, ?_, ?_, ?_, ?_⟩
  · unfold shear
    simp only
    split
    · exact liftWater_same _ _ _
    · exact cleanUp_same _ _ _ _ _
  · unfold slice
    split
    · split
      · exact refl
      · exact liftWater_same _ _ _
    · exact cleanUp_same _ _ _ _ _
  · unfold fillSlice
    split
    · split
      · exact refl
      · exact liftWater_same _ _ _
    · exact cleanUp_same _ _ _ _ _
  · intro s' h
    unfold dune at h
    cases hb : p.base with
    | none => rw [hb] at h; cases h
    | some base =>
      rw [hb] at h
      simp only [Option.some.injEq] at h
      subst h
      refine ⟨fun k => ?_, rfl, rfl⟩
      unfold depth
      simp only
      rw [zip_map, put_map]
      split_ifs with hk
      · ring
      · rw [put_not_mem _ _ _ _ hk, put_not_mem _ _ _ _ hk]
  · intro s' h
    unfold erosion at h
    split at h
    · split at h
      · cases h
      · cases h; exact liftWater_same _ _ _
    · simp only at h
      split at h
      · cases h
      · cases h; exact cleanUp_same _ _ _ _ _

/-- C94: so the volume of water over any triangles, and in particular in the domain, stays. -/
theorem C94_volume (area : ℕ → K) (T : Finset ℕ) (s s' : State K) (h : SameWater s s') :
    ∑ k ∈ T, area k * (s'.stage k - s'.elev k) = ∑ k ∈ T, area k * (s.stage k - s.elev k) :=
  Finset.sum_congr rfl fun k _ => congrArg (area k * ·) (h.1 k)

/-! ### Bed shear -/

theorem shearScour_spec (sq : K → K) (l : Limits K) (factor : K) (hf : factor ≠ 0) (slope : ℕ → K) (dt : K) (s : State K) (k : ℕ)
    (hd : 0 ≤ depth s k) : IsShearScour sq l factor slope dt s k (shearScour sq l factor slope dt s k) := by
  have hpos : 0 < depth s k + 1 / 10 ^ 10 := by
    have : (0 : K) < 1 / 10 ^ 10 := by positivity
    linarith
  unfold IsShearScour shearScour
  simp only
  have hh : s.stage k - s.elev k = depth s k := rfl
  rw [hh]
  by_cases h : sq (s.xmom k ^ 2 + s.ymom k ^ 2) / (depth s k + 1 / 10 ^ 10) > l.threshold
  · left
    rw [if_pos h]
    refine ⟨(lt_div_iff₀ hpos).1 h, ?_⟩
    rw [mul_right_comm, div_mul_cancel₀ _ hf]
  · right
    rw [if_neg h]
    exact ⟨(div_le_iff₀ hpos).1 (not_lt.1 h), rfl⟩

theorem scour_unique {sq : K → K} {l : Limits K} {factor : K} (hf : factor ≠ 0) {slope : ℕ → K} {dt : K} {s : State K} {k : ℕ} {e e' : K}
    (h : IsShearScour sq l factor slope dt s k e) (h' : IsShearScour sq l factor slope dt s k e') : e = e' := by
  rcases h with ⟨h1, h2⟩ | ⟨h1, h2⟩ <;> rcases h' with ⟨h3, h4⟩ | ⟨h3, h4⟩
  · exact mul_right_cancel₀ hf (h2.trans h4.symm)
  · exact absurd h1 (not_lt.2 h3)
  · exact absurd h3 (not_lt.2 h1)
  · rw [h2, h4]

theorem sinks_max (base old e : K) : Sinks base old e (max (old - e) base) := by
  refine ⟨le_max_right _ _, le_max_left _ _, ?_⟩
  rcases max_choice (old - e) base with h | h <;> rw [h] <;> simp

/-- C94: with discontinuous elevation the bed shear operator lowers the bed of each triangle of its region by the scour of the step, but not
below the base level; other triangles stay. -/
theorem C94_shear (sq : K → K) (d : Dom K) (hd : d.discontinuous = true) (l : Limits K) (factor : K) (hf : factor ≠ 0) (slope : ℕ → K)
    (ids nodeIds vols : List ℕ) (dt : K) (s : State K) :
    let s' := shear sq d l factor slope ids nodeIds vols dt s
    (∀ k ∈ ids, 0 ≤ depth s k → ∀ e, IsShearScour sq l factor slope dt s k e → Sinks l.base (s.elev k) e (s'.elev k)) ∧
    OnlyChanges (· ∈ ids) s s' := by
  intro s'
  have hs' : s' = liftWater s ids (ids.map fun k => max (s.elev k - shearScour sq l factor slope dt s k) l.base) := by
    simp only [s', shear, hd, if_true]
  refine ⟨?_, ?_⟩
  · intro k hk hdep e he
    rw [scour_unique hf he (shearScour_spec sq l factor hf slope dt s k hdep), hs', liftWater_elev _ _ _ _ hk]
    exact sinks_max _ _ _
  · rw [hs']
    exact liftWater_out _ _ _

/-- The scour is not negative. -/
theorem shear_scour_nonneg {sq : K → K} {l : Limits K} {factor : K} (hf : 0 < factor) {slope : ℕ → K} {dt : K} (hdt : 0 ≤ dt)
    {s : State K} {k : ℕ} {e : K} (hd : 0 ≤ depth s k) (hs : 0 ≤ slope k) (h : IsShearScour sq l factor slope dt s k e) : 0 ≤ e := by
  rcases h with ⟨_, h⟩ | ⟨_, h⟩
  · have : 0 ≤ e * factor := by rw [h]; positivity
    exact nonneg_of_mul_nonneg_left this hf
  · exact h.ge

/-- C94: so a bed that is not below the base never rises and never falls below the base, and one that is below it is lifted to it. -/
theorem C94_never_rises (base old e new : K) (he : 0 ≤ e) (h : Sinks base old e new) :
    base ≤ new ∧ (base ≤ old → new ≤ old) ∧ (old ≤ base → new = base) := by
  obtain ⟨h1, h2, h3⟩ := h
  refine ⟨h1, fun hb => ?_, fun hb => ?_⟩
  · rcases h3 with h3 | h3 <;> rw [h3] <;> linarith
  · rcases h3 with h3 | h3
    · exact le_antisymm (by rw [h3]; linarith) h1
    · exact h3

/-- C94: over a whole run, in which anything may happen to the water between the calls: the bed of a triangle of the region that starts above
the base sinks from call to call and never gets below the base. -/
theorem C94_run (sq : K → K) (d : Dom K) (hd : d.discontinuous = true) (l : Limits K) (factor : K) (hf : 0 < factor) (slope : ℕ → ℕ → K)
    (hsl : ∀ i k, 0 ≤ slope i k) (ids nodeIds vols : List ℕ) (dt : ℕ → K) (hdt : ∀ i, 0 ≤ dt i) (S : ℕ → State K)
    (hdep : ∀ i k, 0 ≤ depth (S i) k)
    (hS : ∀ i, (S (i + 1)).elev = (shear sq d l factor (slope i) ids nodeIds vols (dt i) (S i)).elev) (k : ℕ) (hk : k ∈ ids)
    (h0 : l.base ≤ (S 0).elev k) :
    ∀ i j, i ≤ j → l.base ≤ (S j).elev k ∧ (S j).elev k ≤ (S i).elev k := by
  have hstep : ∀ i, l.base ≤ (S i).elev k → l.base ≤ (S (i + 1)).elev k ∧ (S (i + 1)).elev k ≤ (S i).elev k := by
    intro i hb
    have hsc := shearScour_spec sq l factor hf.ne' (slope i) (dt i) (S i) k (hdep i k)
    have := (C94_shear sq d hd l factor hf.ne' (slope i) ids nodeIds vols (dt i) (S i)).1 k hk (hdep i k) _ hsc
    rw [hS i]
    have h := C94_never_rises _ _ _ _ (shear_scour_nonneg hf (hdt i) (hdep i k) (hsl i k) hsc) this
    exact ⟨h.1, h.2.1 hb⟩
  have hbase : ∀ i, l.base ≤ (S i).elev k := by
    intro i
    induction i with
    | zero => exact h0
    | succ i ih => exact (hstep i ih).1
  intro i j hij
  refine ⟨hbase j, ?_⟩
  induction j, hij using Nat.le_induction with
  | base => exact le_rfl
  | succ j _ ih => exact (hstep j (hbase j)).2.trans ih

/-- C94: with continuous elevation the corners of the region's triangles are lowered in that way, then the nodes are levelled. -/
theorem C94_shear_continuous (sq : K → K) (d : Dom K) (hd : d.discontinuous = false) (ha : IsArgsort d.flat d.vvi) (l : Limits K) (factor : K)
    (hf : factor ≠ 0) (slope : ℕ → K) (ids nodeIds vols : List ℕ) (hn : IsNodeIds d ids nodeIds) (hv : IsVols d nodeIds vols) (dt : K)
    (s : State K) (hdep : ∀ k ∈ ids, 0 ≤ depth s k) :
    ∃ f : ℕ → K, (∀ c, c / 3 ∈ ids → ∀ e, IsShearScour sq l factor slope dt s (c / 3) e → Sinks l.base (s.ev c) e (f c)) ∧
      Levelled d ids f s (shear sq d l factor slope ids nodeIds vols dt s) := by
  refine ⟨fun c => max (s.ev c - shearScour sq l factor slope dt s (c / 3)) l.base, fun c hc e he => ?_, ?_⟩
  · rw [scour_unique hf he (shearScour_spec sq l factor hf slope dt s (c / 3) (hdep _ hc))]
    exact sinks_max _ _ _
  · have : shear sq d l factor slope ids nodeIds vols dt s = cleanUp d nodeIds vols (put s.ev (corners ids)
        ((corners ids).map fun c => max (s.ev c - shearScour sq l factor slope dt s (c / 3)) l.base)) s := by
      simp only [shear, hd, Bool.false_eq_true, if_false]
    rw [this]
    refine cleanUp_levelled d ha ids nodeIds vols hn hv _ s _ fun c => ?_
    rw [put_map]
    simp only [mem_corners]

/-- C94: a levelled node of a continuous bed: it stays between the base and its old level, and sinks at most by the greatest scour around it. -/
theorem C94_node_bounds (d : Dom K) (ids : List ℕ) (f : ℕ → K) (s s' : State K) (h : Levelled d ids f s s')
    (hc : SetQ.Continuous d s.ev) (base E : K) (e : ℕ → K) (c u : ℕ) (hcu : d.flat[c]? = some u) (hb : base ≤ s.ev c)
    (he : ∀ k, 0 ≤ e k ∧ e k ≤ E) (hf : ∀ c', c' / 3 ∈ ids → d.flat[c']? = some u → Sinks base (s.ev c') (e (c' / 3)) (f c')) :
    base ≤ s'.ev c ∧ s.ev c - E ≤ s'.ev c ∧ s'.ev c ≤ s.ev c := by
  have hE : 0 ≤ E := (he 0).1.trans (he 0).2
  by_cases hr : ∃ c', c' / 3 ∈ ids ∧ d.flat[c']? = some u
  · rw [h.1 c u hcu hr]
    have key : ∀ c', d.flat[c']? = some u → max base (s.ev c - E) ≤ (if c' / 3 ∈ ids then f c' else s.ev c') ∧
        (if c' / 3 ∈ ids then f c' else s.ev c') ≤ s.ev c := by
      intro c' hc'
      have hval : s.ev c' = s.ev c := hc c' c u hc' hcu
      split
      · rename_i hin
        have hs := hf c' hin hc'
        obtain ⟨h1, h2, h3⟩ := C94_never_rises _ _ _ _ (he _).1 hs
        rw [hval] at h2
        refine ⟨max_le h1 ?_, h2 hb⟩
        have := hs.2.1
        have h4 := (he (c' / 3)).2
        rw [hval] at this
        linarith
      · rw [hval]
        exact ⟨max_le hb (by linarith), le_rfl⟩
    have hm := cornerMean_bounds d.flat _ u (List.mem_of_getElem? hcu) _ _ key
    exact ⟨(le_max_left _ _).trans hm.1, (le_max_right _ _).trans hm.1, hm.2⟩
  · rw [h.2.1 c u hcu hr]
    exact ⟨hb, by linarith, le_rfl⟩

/-! ### Slices and fills -/

/-- C94: the slice operator (discontinuous elevation) cuts the bed of its region down to the level, leaves lower parts and other triangles
alone, and doing it again changes nothing. -/
theorem C94_slice (d : Dom K) (hd : d.discontinuous = true) (v : K) (ids nodeIds vols : List ℕ) (s : State K) :
    let s' := slice d (some v) ids nodeIds vols s
    (∀ k ∈ ids, s'.elev k ≤ v ∧ (s.elev k ≤ v → s'.elev k = s.elev k) ∧ (v ≤ s.elev k → s'.elev k = v)) ∧
    OnlyChanges (· ∈ ids) s s' ∧ (slice d (some v) ids nodeIds vols s').elev = s'.elev := by
  intro s'
  have hs : ∀ s : State K, slice d (some v) ids nodeIds vols s = liftWater s ids (ids.map fun k => cut v (s.elev k)) := by
    intro s
    simp only [slice, hd, if_true]
  have hcut : ∀ z : K, cut v z ≤ v ∧ (z ≤ v → cut v z = z) ∧ (v ≤ z → cut v z = v) := by
    intro z
    unfold cut
    refine ⟨?_, fun h => if_neg (not_lt.2 h), fun h => ?_⟩
    · split_ifs with h
      · exact le_rfl
      · exact not_lt.1 h
    · split_ifs with h'
      · rfl
      · exact le_antisymm (not_lt.1 h') h
  have h1 : ∀ k ∈ ids, s'.elev k = cut v (s.elev k) := fun k hk => by simp only [s', hs]; exact liftWater_elev _ _ _ _ hk
  refine ⟨fun k hk => by rw [h1 k hk]; exact hcut _, by simp only [s', hs]; exact liftWater_out _ _ _, ?_⟩
  funext k
  rw [hs s']
  by_cases hk : k ∈ ids
  · rw [liftWater_elev _ _ _ _ hk, (hcut _).2.1]
    rw [h1 k hk]
    exact (hcut _).1
  · exact (liftWater_out _ _ _ k hk).1

/-- C94: the fill-and-slice operator (discontinuous elevation) makes the level the highest of its region: if it lies above all of the region
everything is filled up to it, otherwise what is higher is cut down to it and the rest stays. -/
theorem C94_fill (d : Dom K) (hd : d.discontinuous = true) (v : K) (ids nodeIds vols : List ℕ) (hne : ids ≠ []) (s : State K) :
    let s' := fillSlice d (some v) ids nodeIds vols s
    ((∃ k ∈ ids, s'.elev k = v) ∧ ∀ k ∈ ids, s'.elev k ≤ v) ∧ ((∀ k ∈ ids, s.elev k < v) → ∀ k ∈ ids, s'.elev k = v) ∧
    ((∃ k ∈ ids, v ≤ s.elev k) → ∀ k ∈ ids, s.elev k ≤ v → s'.elev k = s.elev k) ∧ OnlyChanges (· ∈ ids) s s' := by
  intro s'
  obtain ⟨top, htop⟩ : ∃ top, greatest (ids.map s.elev) = some top := by
    cases ids with
    | nil => exact absurd rfl hne
    | cons a l => exact ⟨_, rfl⟩
  obtain ⟨hm, hle⟩ := greatest_spec _ _ htop
  obtain ⟨kt, hkt, rfl⟩ := List.mem_map.1 hm
  have hle' : ∀ k ∈ ids, s.elev k ≤ s.elev kt := fun k hk => hle _ (List.mem_map.2 ⟨k, hk, rfl⟩)
  by_cases hv : v > s.elev kt
  · have hs' : s' = liftWater s ids (ids.map fun k => raise v (s.elev k)) := by
      simp only [s', fillSlice, hd, if_true, fillLevels, htop, if_pos hv, List.map_map, Function.comp_def]
    have hall : ∀ k ∈ ids, s'.elev k = v := by
      intro k hk
      rw [hs', liftWater_elev _ _ _ _ hk]
      exact if_pos (lt_of_le_of_lt (hle' k hk) hv)
    refine ⟨⟨⟨kt, hkt, hall _ hkt⟩, fun k hk => (hall k hk).le⟩, fun _ => hall, ?_, ?_⟩
    · rintro ⟨k, hk, hvk⟩
      exact absurd (lt_of_le_of_lt (hvk.trans (hle' k hk)) hv) (lt_irrefl _)
    · rw [hs']; exact liftWater_out _ _ _
  · have hs' : s' = liftWater s ids (ids.map fun k => cut v (s.elev k)) := by
      simp only [s', fillSlice, hd, if_true, fillLevels, htop, if_neg hv, List.map_map, Function.comp_def]
    have hk' : ∀ k ∈ ids, s'.elev k = cut v (s.elev k) := fun k hk => by rw [hs', liftWater_elev _ _ _ _ hk]
    refine ⟨⟨⟨kt, hkt, ?_⟩, fun k hk => ?_⟩, fun h => absurd (h kt hkt) hv, fun _ k hk h => ?_, ?_⟩
    · rw [hk' _ hkt]
      unfold cut
      split_ifs with h
      · rfl
      · exact le_antisymm (not_lt.1 h) (not_lt.1 hv)
    · rw [hk' _ hk]
      unfold cut
      split_ifs with h
      · exact le_rfl
      · exact not_lt.1 h
    · rw [hk' _ hk]
      exact if_neg (not_lt.2 h)
    · rw [hs']; exact liftWater_out _ _ _

/-- C94: with continuous elevation both operators treat the corners of the region's triangles in that way, then the nodes are levelled. A
level function that raises leaves the corners as they are. -/
theorem C94_slice_continuous (d : Dom K) (hd : d.discontinuous = false) (ha : IsArgsort d.flat d.vvi) (value : Option K)
    (ids nodeIds vols : List ℕ) (hn : IsNodeIds d ids nodeIds) (hv : IsVols d nodeIds vols) (s : State K) :
    (∃ f : ℕ → K, (∀ c, c / 3 ∈ ids → (value = none → f c = s.ev c) ∧
        ∀ v, value = some v → f c ≤ v ∧ (s.ev c ≤ v → f c = s.ev c) ∧ (v ≤ s.ev c → f c = v)) ∧
      Levelled d ids f s (slice d value ids nodeIds vols s)) ∧
    (∃ f : ℕ → K, (∀ c, c / 3 ∈ ids → (value = none → f c = s.ev c) ∧
        ∀ v, value = some v → f c ≤ v ∧ ((∀ c, c / 3 ∈ ids → s.ev c < v) → f c = v) ∧
          ((∃ c, c / 3 ∈ ids ∧ v ≤ s.ev c) → (s.ev c ≤ v → f c = s.ev c) ∧ (v ≤ s.ev c → f c = v))) ∧
      Levelled d ids f s (fillSlice d value ids nodeIds vols s)) := by
  have hcut : ∀ v z : K, cut v z ≤ v ∧ (z ≤ v → cut v z = z) ∧ (v ≤ z → cut v z = v) := by
    intro v z
    unfold cut
    refine ⟨?_, fun h => if_neg (not_lt.2 h), fun h => ?_⟩
    · split_ifs with h
      · exact le_rfl
      · exact not_lt.1 h
    · split_ifs with h'
      · rfl
      · exact le_antisymm (not_lt.1 h') h
  have hput : ∀ g : ℕ → K, ∀ c, put s.ev (corners ids) ((corners ids).map g) c = if c / 3 ∈ ids then g c else s.ev c := by
    intro g c
    rw [put_map]
    simp only [mem_corners]
  have hself : ∀ c, s.ev c = if c / 3 ∈ ids then s.ev c else s.ev c := fun c => (ite_self _).symm
  constructor
  · cases value with
    | none =>
      refine ⟨s.ev, fun c _ => ⟨fun _ => rfl, fun v h => (nomatch h)⟩, ?_⟩
      have : slice d none ids nodeIds vols s = cleanUp d nodeIds vols s.ev s := by
        simp only [slice, hd, Bool.false_eq_true, if_false]
      rw [this]
      exact cleanUp_levelled d ha ids nodeIds vols hn hv _ s _ hself
    | some v =>
      refine ⟨fun c => cut v (s.ev c), fun c _ => ⟨fun h => (nomatch h), fun w h => by cases h; exact hcut _ _⟩, ?_⟩
      have : slice d (some v) ids nodeIds vols s =
          cleanUp d nodeIds vols (put s.ev (corners ids) ((corners ids).map fun c => cut v (s.ev c))) s := by
        simp only [slice, hd, Bool.false_eq_true, if_false]
      rw [this]
      exact cleanUp_levelled d ha ids nodeIds vols hn hv _ s _ (hput _)
  · have hfs : fillSlice d value ids nodeIds vols s = cleanUp d nodeIds vols
        (match fillLevels value ((corners ids).map s.ev) with
          | none => s.ev
          | some new => put s.ev (corners ids) new) s := by
      unfold fillSlice
      rw [if_neg (by rw [hd]; simp)]
      all_goals (cases fillLevels value ((corners ids).map s.ev) <;> rfl)
    rw [hfs]
    cases value with
    | none =>
      refine ⟨s.ev, fun c _ => ⟨fun _ => rfl, fun v h => (nomatch h)⟩, ?_⟩
      exact cleanUp_levelled d ha ids nodeIds vols hn hv _ s _ hself
    | some v =>
      cases hg : greatest ((corners ids).map s.ev) with
      | none =>
        have hnil : ids = [] := by
          cases ids with
          | nil => rfl
          | cons a l => simp [corners, greatest] at hg
        refine ⟨s.ev, fun c hc => ?_, ?_⟩
        · rw [hnil] at hc; cases hc
        · simp only [fillLevels, hg]
          exact cleanUp_levelled d ha ids nodeIds vols hn hv _ s _ hself
      | some top =>
        obtain ⟨hm, hle⟩ := greatest_spec _ _ hg
        obtain ⟨ct, hct, rfl⟩ := List.mem_map.1 hm
        have hct' := (mem_corners ids ct).1 hct
        have hle' : ∀ c, c / 3 ∈ ids → s.ev c ≤ s.ev ct := fun c hc => hle _ (List.mem_map.2 ⟨c, (mem_corners ids c).2 hc, rfl⟩)
        by_cases hvt : v > s.ev ct
        · refine ⟨fun c => raise v (s.ev c), fun c hc => ⟨fun h => (nomatch h), fun w h => ?_⟩, ?_⟩
          · cases h
            have hr : raise v (s.ev c) = v := if_pos (lt_of_le_of_lt (hle' c hc) hvt)
            refine ⟨hr.le, fun _ => hr, ?_⟩
            rintro ⟨c', hc', hv'⟩
            exact absurd (lt_of_le_of_lt (hv'.trans (hle' c' hc')) hvt) (lt_irrefl _)
          · simp only [fillLevels, hg, if_pos hvt, List.map_map, Function.comp_def]
            exact cleanUp_levelled d ha ids nodeIds vols hn hv _ s _ (hput _)
        · refine ⟨fun c => cut v (s.ev c), fun c hc => ⟨fun h => (nomatch h), fun w h => ?_⟩, ?_⟩
          · cases h
            exact ⟨(hcut _ _).1, fun h => absurd (h ct hct') hvt, fun _ => (hcut _ _).2⟩
          · simp only [fillLevels, hg, if_neg hvt, List.map_map, Function.comp_def]
            exact cleanUp_levelled d ha ids nodeIds vols hn hv _ s _ (hput _)

end Verif.Erode
