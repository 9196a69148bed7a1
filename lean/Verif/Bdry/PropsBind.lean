import Verif.Bdry.Lemmas
import Verif.Bdry.Spec

/-! C37: `set_boundary` and `update_boundary`. -/

set_option linter.unusedSectionVars false

namespace Verif.Bdry

variable {α : Type*}

theorem get?_set (m : Dict α) (k t : Tag) (v : α) :
    (m.set k v).get? t = if t = k then some v else m.get? t := by
  unfold Dict.set
  by_cases hany : m.any (fun e => e.1 == k) = true
  · rw [if_pos hany]
    unfold Dict.get?
    induction m with
    | nil => simp at hany
    | cons e m ih =>
      obtain ⟨a, x⟩ := e
      by_cases hak : a = k
      · subst hak
        by_cases ht : t = a
        · subst ht; simp
        · have hne : (a == t) = false := by simpa using fun h => ht h.symm
          simp only [List.map_cons, if_true, List.find?_cons, hne, ht, if_false]
          by_cases hany' : m.any (fun e => e.1 == a) = true
          · have := ih hany'
            simpa [ht] using this
          · have hmap : m.map (fun e => if e.1 = a then (a, v) else e) = m := by
              have h0 : ∀ e ∈ m, ¬ e.1 = a := by
                intro e he hea
                exact hany' (List.any_eq_true.2 ⟨e, he, by simp [hea]⟩)
              conv_rhs => rw [← List.map_id m]
              exact List.map_congr_left fun e he => by simp [h0 e he]
            rw [hmap]
      · have hany' : m.any (fun e => e.1 == k) = true := by
          simpa [List.any_cons, hak] using hany
        have := ih hany'
        simp only [List.map_cons, hak, if_false, List.find?_cons]
        by_cases hat : (a == t) = true
        · have hat' : a = t := by simpa using hat
          subst hat'
          simp [hak]
        · have hat' : (a == t) = false := by simpa using hat
          simp only [hat']
          exact this
  · rw [if_neg hany]
    have hnone : ∀ e ∈ m, ¬ e.1 = k := by
      intro e he hea
      exact hany (List.any_eq_true.2 ⟨e, he, by simp [hea]⟩)
    unfold Dict.get?
    rw [List.find?_append]
    by_cases ht : t = k
    · subst ht
      have : m.find? (fun e => e.1 == t) = none := by
        rw [List.find?_eq_none]; intro e he; simpa using hnone e he
      simp [this]
    · have hkt : (k == t) = false := by simpa using fun h => ht h.symm
      simp [ht, hkt]

theorem get?_update (m n : Dict α) (hn : (n.map Prod.fst).Nodup) (t : Tag) :
    (m.update n).get? t = (n.get? t).or (m.get? t) := by
  unfold Dict.update
  induction n generalizing m with
  | nil => simp [Dict.get?]
  | cons e n ih =>
    obtain ⟨k, v⟩ := e
    rw [List.map_cons, List.nodup_cons] at hn
    rw [List.foldl_cons, ih _ hn.2, get?_set]
    by_cases ht : t = k
    · subst ht
      have : Dict.get? n t = none := by
        unfold Dict.get?
        rw [Option.map_eq_none_iff, List.find?_eq_none]
        intro e he
        have : e.1 ≠ t := fun h => hn.1 (List.mem_map.2 ⟨e, he, h⟩)
        simpa using this
      rw [this]
      simp [Dict.get?]
    · have hkt : (k == t) = false := by simpa using fun h => ht h.symm
      have : Dict.get? ((k, v) :: n) t = Dict.get? n t := by
        simp [Dict.get?, hkt]
      rw [this]; simp [ht]

theorem bound_append (l : List (Dict (Option α))) (m : Dict (Option α)) (t : Tag) :
    bound (l ++ [m]) t = (m.get? t).or (bound l t) := by
  induction l with
  | nil =>
    simp only [List.nil_append, bound, Option.or_none]
    rfl
  | cons a l ih =>
    rw [List.cons_append, bound, ih, bound]
    cases Dict.get? m t <;> simp
    
theorem tagsAllowed_iff (d : Binder α) (m : Dict (Option α)) :
    d.tagsAllowed m = true ↔ Known d m := by
  unfold Binder.tagsAllowed Known
  rw [Bool.or_eq_true, List.all_eq_true]
  refine or_congr Iff.rfl (forall₂_congr fun e he => ?_)
  rw [Bool.or_eq_true, List.any_eq_true]
  simp

theorem bindLoop_spec (m : Dict (Option α)) (l : List ((ℕ × ℕ) × Tag)) (acc : List ((ℕ × ℕ) × α)) :
    ((∀ s ∈ l, (m.get? s.2).isSome) → bindLoop m l acc =
      (acc ++ l.filterMap fun s => (m.get? s.2).join.map fun B => (s.1, B), none)) ∧
    ((∃ s ∈ l, m.get? s.2 = none) → (bindLoop m l acc).2 = some .unboundTag) := by
  induction l generalizing acc with
  | nil => simp [bindLoop]
  | cons s l ih =>
    obtain ⟨k, t⟩ := s
    rw [bindLoop]
    cases hm : m.get? t with
    | none => simp [hm]
    | some o =>
      cases o with
      | none =>
        obtain ⟨h1, h2⟩ := ih acc
        refine ⟨fun h => ?_, ?_⟩
        · simp only
          rw [h1 fun s hs => h s (List.mem_cons_of_mem _ hs)]
          simp [hm]
        · rintro ⟨s, hs, hn⟩
          rcases List.mem_cons.1 hs with rfl | hs
          · simp [hm] at hn
          · exact h2 ⟨s, hs, hn⟩
      | some B =>
        obtain ⟨h1, h2⟩ := ih (acc ++ [(k, B)])
        refine ⟨fun h => ?_, ?_⟩
        · simp only
          rw [h1 fun s hs => h s (List.mem_cons_of_mem _ hs)]
          simp [hm]
        · rintro ⟨s, hs, hn⟩
          rcases List.mem_cons.1 hs with rfl | hs
          · simp [hm] at hn
          · exact h2 ⟨s, hs, hn⟩

/-- What stays true after any number of calls: the geometry is unchanged, unused dictionaries are
unchanged, and the stored map answers like the history of accepted dictionaries. -/
structure Inv (h0 : Heap α) (d0 : Binder α) (acc : List (Dict (Option α))) (used : ℕ → Prop)
    (s : Heap α × Binder α) : Prop where
  boundary : s.2.boundary = d0.boundary
  parallel : s.2.parallel = d0.parallel
  heap : ∀ r, ¬ used r → s.1 r = h0 r
  map : match s.2.map with
    | none => acc = []
    | some r => used r ∧ ∀ t, Dict.get? (s.1 r) t = bound acc t

theorem set_step (isFlux : α → Bool) (h0 : Heap α) (d0 : Binder α) (acc : List (Dict (Option α)))
    (used : ℕ → Prop) (s : Heap α × Binder α) (hI : Inv h0 d0 acc used s) (r : ℕ) (hr : ¬ used r)
    (hk : ((h0 r).map Prod.fst).Nodup) :
    (¬ Known d0 (h0 r) → setBoundary isFlux s.1 s.2 r = (s.1, s.2, some .unknownTag)) ∧
    (Known d0 (h0 r) →
      Inv h0 d0 (acc ++ [h0 r]) (fun k => used k ∨ k = r)
        ((setBoundary isFlux s.1 s.2 r).1, (setBoundary isFlux s.1 s.2 r).2.1) ∧
      ((∀ x ∈ d0.boundary, (bound (acc ++ [h0 r]) x.2).isSome) →
        (setBoundary isFlux s.1 s.2 r).2.2 = none ∧
        (setBoundary isFlux s.1 s.2 r).2.1.objects =
          (d0.boundary.insertionSort keyLe).filterMap fun x =>
            (bound (acc ++ [h0 r]) x.2).join.map fun B => (x.1, B)) ∧
      ((∃ x ∈ d0.boundary, bound (acc ++ [h0 r]) x.2 = none) →
        (setBoundary isFlux s.1 s.2 r).2.2 = some .unboundTag)) := by
  obtain ⟨h, d⟩ := s
  obtain ⟨hb, hp, hh, hm⟩ := hI
  simp only at hb hp hh hm
  have hhr : h r = h0 r := hh r hr
  have hallow : d.tagsAllowed (h r) = true ↔ Known d0 (h0 r) := by
    rw [tagsAllowed_iff, hhr]; unfold Known; rw [hb, hp]
  constructor
  · intro hn
    have : d.tagsAllowed (h r) = false := by
      cases hc : d.tagsAllowed (h r)
      · rfl
      · exact (hn (hallow.1 hc)).elim
    simp only [setBoundary, this, Bool.false_eq_true, if_false]
  · intro hkn
    have hc : d.tagsAllowed (h r) = true := hallow.2 hkn
    -- the state after the map has been stored
    obtain ⟨h', r', hs, hused, hget, hheap⟩ : ∃ (h' : Heap α) (r' : ℕ),
        storeMap h d.map r = (h', r') ∧
        (used r' ∨ r' = r) ∧ (∀ t, Dict.get? (h' r') t = bound (acc ++ [h0 r]) t) ∧
        (∀ k, ¬ (used k ∨ k = r) → h' k = h0 k) := by
      cases hmap : d.map with
      | none =>
        rw [hmap] at hm
        simp only at hm
        refine ⟨h, r, rfl, Or.inr rfl, fun t => ?_, fun k hk => hh k fun hu => hk (Or.inl hu)⟩
        rw [bound_append, hm, hhr]
        simp [bound]
      | some k =>
        rw [hmap] at hm
        simp only at hm
        refine ⟨_, k, rfl, Or.inl hm.1, fun t => ?_, fun k' hk' => ?_⟩
        · rw [Function.update_self, get?_update _ _ (by rw [hhr]; exact hk), bound_append, hhr,
            hm.2 t]
        · have : k' ≠ k := fun h => hk' (Or.inl (h ▸ hm.1))
          rw [Function.update_of_ne this]
          exact hh k' fun hu => hk' (Or.inl hu)
    have hseg : ∀ m : Option ℕ, Binder.segments { d with map := m } =
        d0.boundary.insertionSort keyLe := by
      intro m; unfold Binder.segments; rw [← hb]
    have hset : setBoundary isFlux h d r =
        match (bindLoop (h' r') (d0.boundary.insertionSort keyLe) []).2 with
        | some e => (h', ⟨d.boundary, d.parallel, some r',
            (bindLoop (h' r') (d0.boundary.insertionSort keyLe) []).1, d.fluxType⟩, some e)
        | none => (h', ⟨d.boundary, d.parallel, some r',
            (bindLoop (h' r') (d0.boundary.insertionSort keyLe) []).1,
            fluxTypes isFlux d.boundary.length
              (bindLoop (h' r') (d0.boundary.insertionSort keyLe) []).1⟩, none) := by
      unfold setBoundary
      rw [if_pos hc, hs]
      simp only [hseg]
      try rfl
    have hspec := bindLoop_spec (h' r') (d0.boundary.insertionSort keyLe) []
    have hmem : ∀ x, x ∈ d0.boundary.insertionSort keyLe ↔ x ∈ d0.boundary := fun x =>
      (List.perm_insertionSort keyLe d0.boundary).mem_iff
    refine ⟨?_, ?_, ?_⟩
    · rw [hset]
      cases (bindLoop (h' r') (d0.boundary.insertionSort keyLe) []).2 <;>
        exact ⟨hb, hp, hheap, hused, hget⟩
    · intro hall
      have := hspec.1 fun s hs => by rw [hget]; exact hall s ((hmem s).1 hs)
      rw [hset, this]
      refine ⟨rfl, ?_⟩
      simp only [List.nil_append, hget]
    · rintro ⟨x, hx, hn⟩
      have := hspec.2 ⟨x, (hmem x).2 hx, by rw [hget]; exact hn⟩
      rw [hset, this]

/-- The dictionaries of a history that were accepted. -/
noncomputable def accepted (d : Binder α) (ms : List (Dict (Option α))) : List (Dict (Option α)) :=
  open Classical in ms.filter fun m => decide (Known d m)

theorem inv_run (isFlux : α → Bool) (h0 : Heap α) (d0 : Binder α) (args : List ℕ)
    (hnd : args.Nodup) (hk : ∀ r ∈ args, ((h0 r).map Prod.fst).Nodup)
    (acc : List (Dict (Option α))) (used : ℕ → Prop) (hu : ∀ r ∈ args, ¬ used r)
    (s : Heap α × Binder α) (hI : Inv h0 d0 acc used s) :
    ∃ used' : ℕ → Prop, (∀ r, used' r → used r ∨ r ∈ args) ∧
      Inv h0 d0 (acc ++ accepted d0 (args.map h0)) used' (runCalls isFlux s args) := by
  induction args generalizing acc used s with
  | nil => exact ⟨used, fun r h => Or.inl h, by simpa [accepted, runCalls] using hI⟩
  | cons r args ih =>
    rw [List.nodup_cons] at hnd
    obtain ⟨hrej, hacc⟩ := set_step isFlux h0 d0 acc used s hI r (hu r List.mem_cons_self)
      (hk r List.mem_cons_self)
    rw [runCalls]
    by_cases hkn : Known d0 (h0 r)
    · obtain ⟨hI', -⟩ := hacc hkn
      obtain ⟨used', h1, h2⟩ := ih hnd.2 (fun k hk' => hk k (List.mem_cons_of_mem _ hk')) _ _
        (fun k hk' => by
          rintro (h | h)
          · exact hu k (List.mem_cons_of_mem _ hk') h
          · exact hnd.1 (h ▸ hk')) _ hI'
      refine ⟨used', fun k hk' => ?_, ?_⟩
      · rcases h1 k hk' with (h | h) | h
        · exact Or.inl h
        · exact Or.inr (h ▸ List.mem_cons_self)
        · exact Or.inr (List.mem_cons_of_mem _ h)
      · have : accepted d0 ((r :: args).map h0) = h0 r :: accepted d0 (args.map h0) := by
          simp [accepted, hkn]
        rw [this]
        simpa using h2
    · rw [hrej hkn]
      obtain ⟨used', h1, h2⟩ := ih hnd.2 (fun k hk' => hk k (List.mem_cons_of_mem _ hk')) _ _
        (fun k hk' => hu k (List.mem_cons_of_mem _ hk')) _ hI
      refine ⟨used', fun k hk' => (h1 k hk').imp_right (List.mem_cons_of_mem _), ?_⟩
      have : accepted d0 ((r :: args).map h0) = accepted d0 (args.map h0) := by
        simp [accepted, hkn]
      rw [this]; exact h2

theorem keyLe_total (a b : (ℕ × ℕ) × Tag) : keyLe a b ∨ keyLe b a := by unfold keyLe; omega

theorem keyLe_trans (a b c : (ℕ × ℕ) × Tag) (h : keyLe a b) (h' : keyLe b c) : keyLe a c := by
  unfold keyLe at *; omega

theorem sorted_segments (b : List ((ℕ × ℕ) × Tag)) (hb : (b.map Prod.fst).Nodup) :
    (b.insertionSort keyLe).Pairwise fun x y => segLt x.1 y.1 := by
  have : Std.Total keyLe := ⟨keyLe_total⟩
  have : IsTrans _ keyLe := ⟨keyLe_trans⟩
  have h1 := List.pairwise_insertionSort keyLe b
  have h2 : ((b.insertionSort keyLe).map Prod.fst).Nodup :=
    ((List.perm_insertionSort keyLe b).map Prod.fst).nodup_iff.2 hb
  rw [List.Nodup, List.pairwise_map] at h2
  refine (h1.and h2).imp ?_
  rintro ⟨⟨a1, a2⟩, t⟩ ⟨⟨b1, b2⟩, u⟩ ⟨h, hne⟩
  simp only [keyLe, segLt, ne_eq, Prod.mk.injEq] at *
  omega

/-- C37: after any history of `set_boundary` calls with distinct dictionaries — each of which may
have raised — a further call

* raises and changes nothing when it names a tag that the mesh does not have,
* raises when some tag of the mesh has not been given in any accepted call,
* otherwise returns, and `boundary_objects` lists, in key order and without repetition, exactly the
  segments whose tag was last given a condition other than `None`, each with that condition. -/
theorem C37_history (isFlux : α → Bool) (h : Heap α) (d : Binder α) (hd : d.map = none)
    (hkeys : (d.boundary.map Prod.fst).Nodup) (args : List ℕ) (r : ℕ) (hnd : (args ++ [r]).Nodup)
    (hk : ∀ k ∈ args ++ [r], ((h k).map Prod.fst).Nodup) :
    let s := runCalls isFlux (h, d) args
    let out := setBoundary isFlux s.1 s.2 r
    let B := bound (accepted d (args.map h) ++ [h r])
    (¬ Known d (h r) → out = (s.1, s.2, some .unknownTag)) ∧
    (Known d (h r) →
      ((∃ x ∈ d.boundary, B x.2 = none) → out.2.2 = some .unboundTag) ∧
      ((∀ x ∈ d.boundary, B x.2 ≠ none) → out.2.2 = none ∧
        (∀ k c, (k, c) ∈ out.2.1.objects ↔ ∃ t, (k, t) ∈ d.boundary ∧ B t = some (some c)) ∧
        out.2.1.objects.Pairwise fun x y => segLt x.1 y.1)) := by
  intro s out B
  rw [List.nodup_append] at hnd
  obtain ⟨used, hu, hI⟩ := inv_run isFlux h d args hnd.1
    (fun k hk' => hk k (List.mem_append_left _ hk')) [] (fun _ => False) (fun _ _ h => h) (h, d)
    ⟨rfl, rfl, fun _ _ => rfl, by simp only [hd]⟩
  rw [List.nil_append] at hI
  have hr : ¬ used r := fun hur => by
    rcases hu r hur with h | h
    · exact h
    · exact hnd.2.2 r h r List.mem_cons_self rfl
  obtain ⟨h1, h2⟩ := set_step isFlux h d _ used s hI r hr
    (hk r (List.mem_append_right _ List.mem_cons_self))
  refine ⟨h1, fun hkn => ?_⟩
  obtain ⟨-, h3, h4⟩ := h2 hkn
  refine ⟨h4, fun hall => ?_⟩
  obtain ⟨h5, h6⟩ := h3 fun x hx => Option.isSome_iff_ne_none.2 (hall x hx)
  refine ⟨h5, ?_, ?_⟩
  · intro k c
    show (k, c) ∈ out.2.1.objects ↔ _
    rw [h6, List.mem_filterMap]
    constructor
    · rintro ⟨⟨k', t⟩, hx, he⟩
      rw [Option.map_eq_some_iff] at he
      obtain ⟨c', hc, he⟩ := he
      rw [Option.join_eq_some_iff] at hc
      simp only [Prod.mk.injEq] at he
      obtain ⟨rfl, rfl⟩ := he
      exact ⟨t, (List.perm_insertionSort keyLe d.boundary).mem_iff.1 hx, hc⟩
    · rintro ⟨t, hx, hc⟩
      refine ⟨(k, t), (List.perm_insertionSort keyLe d.boundary).mem_iff.2 hx, ?_⟩
      have hc' : bound (accepted d (args.map h) ++ [h r]) t = some (some c) := hc
      simp [hc']
  · show out.2.1.objects.Pairwise _
    rw [h6, List.pairwise_filterMap]
    refine (sorted_segments d.boundary hkeys).imp ?_
    intro x y hlt a ha b hb
    rw [Option.map_eq_some_iff] at ha hb
    obtain ⟨_, _, rfl⟩ := ha
    obtain ⟨_, _, rfl⟩ := hb
    exact hlt

/-! ### `update_boundary` -/

section
variable {K : Type*} [Field K] [LinearOrder K] [IsStrictOrderedRing K]

/-- The numbers of the boundary segments of a tag. -/
theorem mem_tagCells (d : Binder α) (t : Tag) (ids : List ℕ) :
    (t, ids) ∈ tagCells d ↔ (∃ s ∈ d.boundary, s.2 = t) ∧
      ids = (d.segments.zipIdx.filter fun x => x.1.2 == t).map Prod.snd := by
  unfold tagCells boundaryTags
  rw [List.mem_map]
  constructor
  · rintro ⟨t', ht, he⟩
    simp only [Prod.mk.injEq] at he
    obtain ⟨rfl, rfl⟩ := he
    rw [List.mem_dedup, List.mem_map] at ht
    exact ⟨ht, rfl⟩
  · rintro ⟨⟨s, hs, rfl⟩, rfl⟩
    exact ⟨s.2, List.mem_dedup.2 (List.mem_map_of_mem hs), rfl⟩

theorem mem_ids (d : Binder α) (t : Tag) (j : ℕ) :
    j ∈ (d.segments.zipIdx.filter fun x => x.1.2 == t).map Prod.snd ↔
      ∃ s, d.segments[j]? = some s ∧ s.2 = t := by
  rw [List.mem_map]
  constructor
  · rintro ⟨⟨s, k⟩, hx, rfl⟩
    rw [List.mem_filter, List.mem_zipIdx_iff_getElem?] at hx
    exact ⟨s, hx.1, by simpa using hx.2⟩
  · rintro ⟨s, hs, rfl⟩
    exact ⟨(s, j), List.mem_filter.2 ⟨List.mem_zipIdx_iff_getElem?.2 hs, by simp⟩, rfl⟩

theorem update_aux (p : Par K) (m : Dict (Option (BC K))) (tc : List (Tag × List ℕ))
    (hdis : tc.Pairwise fun a b => ∀ j ∈ a.2, j ∉ b.2) (d d' : Dom K)
    (h : updateBoundary p m tc d = .ok d') :
    d' = d.withBv d'.bv ∧
    (∀ t ids, (t, ids) ∈ tc → m.get? t ≠ none) ∧
    (∀ t ids, (t, ids) ∈ tc → m.get? t = some none → ∀ j ∈ ids, ∀ q, d'.bv q j = d.bv q j) ∧
    (∀ t ids B, (t, ids) ∈ tc → m.get? t = some (some B) → ∀ j ∈ ids,
      ∃ d1, evaluateSegment p B [j] d = .ok d1 ∧ ∀ q, d'.bv q j = d1.bv q j) ∧
    (∀ j, (∀ t ids, (t, ids) ∈ tc → j ∉ ids) → ∀ q, d'.bv q j = d.bv q j) := by
  induction tc generalizing d with
  | nil =>
    simp only [updateBoundary, Except.ok.injEq] at h
    subst h
    simp
  | cons a tc ih =>
    obtain ⟨t, ids⟩ := a
    rw [List.pairwise_cons] at hdis
    rw [updateBoundary] at h
    cases hm : m.get? t with
    | none => rw [hm] at h; simp at h
    | some o =>
      rw [hm] at h
      cases o with
      | none =>
        simp only at h
        obtain ⟨h1, h2, h3, h4, h5⟩ := ih hdis.2 d h
        refine ⟨h1, ?_, ?_, ?_, ?_⟩
        · intro t' ids' hmem
          rcases List.mem_cons.1 hmem with he | hmem
          · simp only [Prod.mk.injEq] at he
            rw [he.1, hm]; simp
          · exact h2 t' ids' hmem
        · intro t' ids' hmem hn j hj q
          rcases List.mem_cons.1 hmem with he | hmem
          · simp only [Prod.mk.injEq] at he
            obtain ⟨rfl, rfl⟩ := he
            exact h5 j (fun t2 ids2 hmem2 => hdis.1 (t2, ids2) hmem2 j hj) q
          · exact h3 t' ids' hmem hn j hj q
        · intro t' ids' B hmem hB j hj
          rcases List.mem_cons.1 hmem with he | hmem
          · simp only [Prod.mk.injEq] at he
            obtain ⟨rfl, rfl⟩ := he
            rw [hm] at hB; simp at hB
          · exact h4 t' ids' B hmem hB j hj
        · intro j hj q
          exact h5 j (fun t2 ids2 hmem2 => hj t2 ids2 (List.mem_cons_of_mem _ hmem2)) q
      | some B =>
        simp only at h
        obtain ⟨val, c, good, hloc⟩ := local_all p B d
        cases hs : evaluateSegment p B ids d with
        | error e => rw [hs] at h; simp at h
        | ok dm =>
          rw [hs] at h
          simp only at h
          have hids := hloc ids d.bv
          rw [withBv_self, hs] at hids
          have hcond : c ∧ ∀ i ∈ ids, good i := by
            by_contra hn
            obtain ⟨e, he⟩ := hids.2 hn
            cases he
          have hdm : dm = d.withBv (over val ids d.bv) := by
            simpa using hids.1 hcond
          obtain ⟨h1, h2, h3, h4, h5⟩ := ih hdis.2 dm h
          have hone : ∀ B' j (b : Q → ℕ → K), (∀ q, b q j = d.bv q j) → ∀ d1,
              evaluateSegment p B' [j] (d.withBv b) = .ok d1 →
              ∃ d2, evaluateSegment p B' [j] d = .ok d2 ∧ ∀ q, d1.bv q j = d2.bv q j := by
            intro B' j b hb d1 hd1
            obtain ⟨val', c', good', hloc'⟩ := local_all p B' d
            have hcond' : c' ∧ ∀ i ∈ [j], good' i := by
              by_contra hn
              obtain ⟨e, he⟩ := (hloc' [j] b).2 hn
              rw [he] at hd1; cases hd1
            refine ⟨_, by simpa using (hloc' [j] d.bv).1 hcond', fun q => ?_⟩
            have := (hloc' [j] b).1 hcond'
            rw [hd1] at this
            simp only [Except.ok.injEq] at this
            rw [this]
            simp [over, hb q]
          refine ⟨?_, ?_, ?_, ?_, ?_⟩
          · rw [h1, hdm]; rfl
          · intro t' ids' hmem
            rcases List.mem_cons.1 hmem with he | hmem
            · simp only [Prod.mk.injEq] at he
              rw [he.1, hm]; simp
            · exact h2 t' ids' hmem
          · intro t' ids' hmem hn j hj q
            rcases List.mem_cons.1 hmem with he | hmem
            · simp only [Prod.mk.injEq] at he
              rw [he.1, hm] at hn; simp at hn
            · have hj' : j ∉ ids := fun hji => hdis.1 (t', ids') hmem j hji hj
              rw [h3 t' ids' hmem hn j hj q, hdm]
              simp [over, hj']
          · intro t' ids' B' hmem hB j hj
            rcases List.mem_cons.1 hmem with he | hmem
            · simp only [Prod.mk.injEq] at he
              obtain ⟨rfl, rfl⟩ := he
              rw [hm] at hB
              simp only [Option.some.injEq] at hB
              subst hB
              have hj1 := (hloc [j] d.bv).1 ⟨hcond.1, fun i hi => by
                have : i = j := by simpa using hi
                exact this ▸ hcond.2 j hj⟩
              refine ⟨_, by simpa using hj1, fun q => ?_⟩
              rw [h5 j (fun t2 ids2 hmem2 => hdis.1 (t2, ids2) hmem2 j hj) q, hdm]
              simp [over, hj]
            · have hj' : j ∉ ids := fun hji => hdis.1 (t', ids') hmem j hji hj
              obtain ⟨d1, hd1, hq⟩ := h4 t' ids' B' hmem hB j hj
              rw [hdm] at hd1
              obtain ⟨d2, hd2, hq2⟩ := hone B' j _ (fun q => by simp [over, hj']) d1 hd1
              exact ⟨d2, hd2, fun q => (hq q).trans (hq2 q)⟩
          · intro j hj q
            rw [h5 j (fun t2 ids2 hmem2 => hj t2 ids2 (List.mem_cons_of_mem _ hmem2)) q, hdm]
            simp [over, hj t ids List.mem_cons_self]

/-- C37: when `update_boundary` returns, every boundary segment carries the values of the condition
bound to its tag, evaluated at that segment alone and from the state before the update; segments
bound to `None` and numbers beyond the boundary keep their values; nothing but boundary values
changes. -/
theorem C37_update (p : Par K) (m : Dict (Option (BC K))) (b : Binder α) (d d' : Dom K)
    (h : updateBoundary p m (tagCells b) d = .ok d') :
    (∀ j k t, b.segments[j]? = some (k, t) →
      (m.get? t = some none ∧ ∀ q, d'.bv q j = d.bv q j) ∨
      ∃ B d1, m.get? t = some (some B) ∧ evaluateSegment p B [j] d = .ok d1 ∧
        ∀ q, d'.bv q j = d1.bv q j) ∧
    (∀ j, b.boundary.length ≤ j → ∀ q, d'.bv q j = d.bv q j) ∧
    d' = { d with bv := d'.bv } := by
  have hdis : (tagCells b).Pairwise fun x y => ∀ j ∈ x.2, j ∉ y.2 := by
    unfold tagCells
    rw [List.pairwise_map]
    refine (List.nodup_dedup _).imp ?_
    intro t u htu j hj hj'
    simp only at hj hj'
    rw [mem_ids] at hj hj'
    obtain ⟨s, hs, rfl⟩ := hj
    obtain ⟨s', hs', rfl⟩ := hj'
    rw [hs] at hs'
    simp only [Option.some.injEq] at hs'
    exact htu (congrArg Prod.snd hs')
  obtain ⟨h1, h2, h3, h4, h5⟩ := update_aux p m (tagCells b) hdis d d' h
  have hlen : b.segments.length = b.boundary.length := List.length_insertionSort keyLe b.boundary
  refine ⟨?_, ?_, h1⟩
  · intro j k t hj
    have hmem : (k, t) ∈ b.boundary :=
      (List.perm_insertionSort keyLe b.boundary).mem_iff.1 (List.mem_of_getElem? hj)
    have htc : (t, _) ∈ tagCells b := (mem_tagCells b t _).2 ⟨⟨(k, t), hmem, rfl⟩, rfl⟩
    have hjm := (mem_ids b t j).2 ⟨(k, t), hj, rfl⟩
    cases hm : m.get? t with
    | none => exact (h2 t _ htc hm).elim
    | some o =>
      cases o with
      | none => exact Or.inl ⟨rfl, h3 t _ htc hm j hjm⟩
      | some B =>
        obtain ⟨d1, hd1, hq⟩ := h4 t _ B htc hm j hjm
        exact Or.inr ⟨B, d1, rfl, hd1, hq⟩
  · intro j hj q
    refine h5 j (fun t ids hmem hji => ?_) q
    obtain ⟨-, rfl⟩ := (mem_tagCells b t ids).1 hmem
    obtain ⟨s, hs, -⟩ := (mem_ids b t j).1 hji
    rw [List.getElem?_eq_none (by omega)] at hs
    cases hs

/-- C37: `update_boundary` does not depend on the order in which the tags are visited. -/
theorem C37_order (p : Par K) (m : Dict (Option (BC K))) (b : Binder α) (d d1 d2 : Dom K)
    (tc : List (Tag × List ℕ)) (hperm : tc.Perm (tagCells b))
    (h1 : updateBoundary p m (tagCells b) d = .ok d1) (h2 : updateBoundary p m tc d = .ok d2) :
    d1 = d2 := by
  have hdis : (tagCells b).Pairwise fun x y => ∀ j ∈ x.2, j ∉ y.2 := by
    unfold tagCells
    rw [List.pairwise_map]
    refine (List.nodup_dedup _).imp ?_
    intro t u htu j hj hj'
    simp only at hj hj'
    rw [mem_ids] at hj hj'
    obtain ⟨s, hs, rfl⟩ := hj
    obtain ⟨s', hs', rfl⟩ := hj'
    rw [hs] at hs'
    simp only [Option.some.injEq] at hs'
    exact htu (congrArg Prod.snd hs')
  have hdis' : tc.Pairwise fun x y => ∀ j ∈ x.2, j ∉ y.2 :=
    (hperm.pairwise_iff fun {x y} hxy j hj hj' => hxy j hj' hj).2 hdis
  obtain ⟨a1, a2, a3, a4, a5⟩ := update_aux p m _ hdis d d1 h1
  obtain ⟨b1, b2, b3, b4, b5⟩ := update_aux p m tc hdis' d d2 h2
  rw [a1, b1]
  congr 1
  funext q j
  by_cases hj : ∃ t ids, (t, ids) ∈ tc ∧ j ∈ ids
  · obtain ⟨t, ids, hmem, hj⟩ := hj
    have hmem' := hperm.mem_iff.1 hmem
    cases hm : m.get? t with
    | none => exact (b2 t ids hmem hm).elim
    | some o =>
      cases o with
      | none => rw [a3 t ids hmem' hm j hj q, b3 t ids hmem hm j hj q]
      | some B =>
        obtain ⟨x, hx, hxq⟩ := a4 t ids B hmem' hm j hj
        obtain ⟨y, hy, hyq⟩ := b4 t ids B hmem hm j hj
        rw [hx] at hy
        simp only [Except.ok.injEq] at hy
        rw [hxq q, hyq q, hy]
  · rw [a5 j (fun t ids hmem hji => hj ⟨t, ids, hperm.mem_iff.2 hmem, hji⟩) q,
      b5 j (fun t ids hmem hji => hj ⟨t, ids, hmem, hji⟩) q]

end

/-! ### Concrete cases and disagreements

Two boundary edges, tag `1` on `(0, 2)` and tag `2` on `(1, 0)`; conditions are numbers. -/

/-- A mesh with two tagged edges, listed out of order. -/
def sampleBinder : Binder ℕ := ⟨[((1, 0), 2), ((0, 2), 1)], false, none, [], []⟩

/-- Dictionaries: `0` binds tag 1 only, `1` binds tag 2 only, `2` binds both, `3` rebinds tag 1,
`4` names an unknown tag, `5` ignores tag 1 and binds tag 2. -/
def sampleHeap : Heap ℕ := fun r =>
  if r = 0 then [(1, some 10)] else if r = 1 then [(2, some 20)]
  else if r = 2 then [(1, some 10), (2, some 20)] else if r = 3 then [(1, some 30)]
  else if r = 4 then [(9, some 90)] else if r = 5 then [(1, none), (2, some 20)] else []

/-- The hypotheses of `C37_history` hold for three calls; the first raises because tag 2 is still
unbound, the second is rejected, the third completes the map. -/
example : sampleBinder.map = none ∧ (sampleBinder.boundary.map Prod.fst).Nodup ∧
    ([0, 4] ++ [1]).Nodup ∧ (∀ k ∈ [0, 4] ++ [1], ((sampleHeap k).map Prod.fst).Nodup) ∧
    (setBoundary (fun _ => false) sampleHeap sampleBinder 0).2.2 = some .unboundTag ∧
    (let s := runCalls (fun _ => false) (sampleHeap, sampleBinder) [0, 4]
     (setBoundary (fun _ => false) s.1 s.2 1).2.2 = none ∧
     (setBoundary (fun _ => false) s.1 s.2 1).2.1.objects = [((0, 2), 10), ((1, 0), 20)]) := by
  decide +kernel

/-- C37, disagreement: the first call keeps the caller's dictionary.  Two domains given the same
dictionary stay coupled: rebinding a tag in the first changes the map of the second. -/
theorem C37_shared_map : ∃ (h : Heap ℕ) (d : Binder ℕ),
    let f : ℕ → Bool := fun _ => false
    let s1 := setBoundary f h d 2
    let s2 := setBoundary f s1.1 d 2
    let s3 := setBoundary f s2.1 s1.2.1 3
    s1.2.2 = none ∧ s2.2.2 = none ∧ s3.2.2 = none ∧
    -- the second domain was told 10 and never called again
    s2.2.1.map = some 2 ∧ (s2.1 2).get? 1 = some (some 10) ∧ (s3.1 2).get? 1 = some (some 30) :=
  ⟨sampleHeap, sampleBinder, by decide +kernel⟩

/-- C37, disagreement: `boundary_flux_type` is indexed by position in `boundary_objects`, so with a
tag bound to `None` the mark of a flux boundary lands on another segment number. -/
theorem C37_flux_type_misaligned : ∃ (h : Heap ℕ) (d : Binder ℕ),
    let out := setBoundary (fun c => c == 20) h d 5
    out.2.2 = none ∧ d.segments[1]? = some ((1, 0), 2) ∧ (h 5).get? 2 = some (some 20) ∧
    out.2.1.fluxType = [1, 0] :=
  ⟨sampleHeap, sampleBinder, by decide +kernel⟩

theorem filterMap_getElem? {β γ : Type*} (f : β → Option γ) (l : List β)
    (h : ∀ s ∈ l, (f s).isSome) (j : ℕ) : (l.filterMap f)[j]? = l[j]?.bind f := by
  induction l generalizing j with
  | nil => simp
  | cons a l ih =>
    obtain ⟨x, hx⟩ := Option.isSome_iff_exists.1 (h a List.mem_cons_self)
    rw [List.filterMap_cons_some hx]
    cases j with
    | zero => simp [hx]
    | succ j => simpa using ih (fun s hs => h s (List.mem_cons_of_mem _ hs)) j

/-- C37: without tags bound to `None` the mark is where it belongs. -/
theorem C37_flux_type (isFlux : α → Bool) (h : Heap α) (d : Binder α) (hd : d.map = none) (r : ℕ)
    (hall : ∀ x ∈ d.boundary, ∃ c, (h r).get? x.2 = some (some c))
    (hok : (setBoundary isFlux h d r).2.2 = none) (j : ℕ) (k : ℕ × ℕ) (t : Tag) (c : α)
    (hj : d.segments[j]? = some (k, t)) (hc : (h r).get? t = some (some c)) :
    (setBoundary isFlux h d r).2.1.fluxType[j]? = some (if isFlux c then 1 else 0) := by
  have hmem : ∀ x, x ∈ d.boundary.insertionSort keyLe ↔ x ∈ d.boundary := fun x =>
    (List.perm_insertionSort keyLe d.boundary).mem_iff
  have hseg : ∀ m : Option ℕ, Binder.segments { d with map := m } =
      d.boundary.insertionSort keyLe := fun m => rfl
  by_cases ha : d.tagsAllowed (h r) = true
  · have hs := (bindLoop_spec (h r) (d.boundary.insertionSort keyLe) []).1 fun s hs => by
      obtain ⟨c, hc⟩ := hall s ((hmem s).1 hs)
      simp [hc]
    have hset : setBoundary isFlux h d r = (h, ⟨d.boundary, d.parallel, some r,
        (d.boundary.insertionSort keyLe).filterMap fun s =>
          ((h r).get? s.2).join.map fun B => (s.1, B),
        fluxTypes isFlux d.boundary.length ((d.boundary.insertionSort keyLe).filterMap fun s =>
          ((h r).get? s.2).join.map fun B => (s.1, B))⟩, none) := by
      unfold setBoundary
      rw [if_pos ha, hd]
      simp only [storeMap, hseg, hs, List.nil_append]
    rw [hset]
    show (fluxTypes isFlux d.boundary.length _)[j]? = _
    have hlen : (d.boundary.insertionSort keyLe).length = d.boundary.length :=
      List.length_insertionSort keyLe d.boundary
    have hj' : (d.boundary.insertionSort keyLe)[j]? = some (k, t) := hj
    have hjl : j < d.boundary.length := by
      rw [← hlen]; exact (List.getElem?_eq_some_iff.1 hj').1
    unfold fluxTypes
    rw [List.getElem?_map, List.getElem?_range hjl]
    simp only [Option.map_some]
    rw [filterMap_getElem? _ _ (fun s hs => by
      obtain ⟨c, hc⟩ := hall s ((hmem s).1 hs)
      simp [hc]), hj']
    simp [hc]
  · simp only [setBoundary, ha] at hok
    cases hok

end Verif.Bdry
