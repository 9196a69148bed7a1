import Verif.TagRegion.Spec
import Mathlib.Data.List.Nodup
import Mathlib.Data.List.Zip

/-!
# Regions with a tag
-/

set_option linter.unusedSectionVars false

namespace Verif.TagRegion

variable {K Tag Name : Type} [Field K] [DecidableEq Tag] [DecidableEq Name]

/-! ## The dictionary -/

/-- Numbers of the triangles with a tag, in order. -/
def elemsOf (tags : List Tag) (t : Tag) : List ℕ := (List.range tags.length).filter fun k => decide (tags[k]? = some t)

theorem addTag_keys (t : Tag) (k : ℕ) (d : List (Tag × List ℕ)) (h : (d.map Prod.fst).Nodup) :
    ((addTag t k d).map Prod.fst).Nodup ∧ ∀ x, x ∈ (addTag t k d).map Prod.fst ↔ x = t ∨ x ∈ d.map Prod.fst := by
  induction d with
  | nil => simp [addTag]
  | cons e d ih =>
    rw [List.map_cons, List.nodup_cons] at h
    obtain ⟨i1, i2⟩ := ih h.2
    rw [addTag]
    by_cases he : e.1 = t
    · rw [if_pos he]
      refine ⟨by simpa [List.nodup_cons] using h, ?_⟩
      intro x
      simp only [List.map_cons, List.mem_cons]
      constructor
      · rintro (rfl | hx); exacts [.inl he, .inr (.inr hx)]
      · rintro (rfl | rfl | hx); exacts [.inl he.symm, .inl rfl, .inr hx]
    · rw [if_neg he]
      refine ⟨?_, ?_⟩
      · rw [List.map_cons, List.nodup_cons]
        refine ⟨?_, i1⟩
        rw [i2]
        rintro (h1 | h1)
        · exact he h1
        · exact h.1 h1
      · intro x
        simp only [List.map_cons, List.mem_cons, i2]
        tauto

theorem addTag_mem (t : Tag) (k : ℕ) (d : List (Tag × List ℕ)) (h : (d.map Prod.fst).Nodup) (x : Tag) (l : List ℕ) :
    (x, l) ∈ addTag t k d ↔ (x ≠ t ∧ (x, l) ∈ d) ∨ (x = t ∧ ((∃ m, (t, m) ∈ d ∧ l = m ++ [k]) ∨ (t ∉ d.map Prod.fst ∧ l = [k]))) := by
  induction d with
  | nil => simp [addTag]
  | cons e d ih =>
    rw [List.map_cons, List.nodup_cons] at h
    obtain ⟨a, m⟩ := e
    have ih := ih h.2
    rw [addTag]
    by_cases he : a = t
    · subst he
      rw [if_pos rfl]
      have ha : ∀ m', (a, m') ∉ d := fun m' hm => h.1 (List.mem_map.mpr ⟨_, hm, rfl⟩)
      simp only [List.mem_cons, Prod.mk.injEq, List.map_cons, true_and]
      constructor
      · rintro (⟨rfl, rfl⟩ | hx)
        · exact .inr ⟨rfl, .inl ⟨m, .inl rfl, rfl⟩⟩
        · exact .inl ⟨fun e => ha l (e ▸ hx), .inr hx⟩
      · rintro (⟨h1, (⟨h2, -⟩ | h2)⟩ | ⟨rfl, (⟨m', (rfl | h2), rfl⟩ | ⟨h2, -⟩)⟩)
        · exact absurd h2 h1
        · exact .inr h2
        · exact .inl ⟨rfl, rfl⟩
        · exact absurd h2 (ha m')
        · exact absurd (.inl trivial) h2
    · rw [if_neg he, List.mem_cons, ih]
      simp only [List.mem_cons, Prod.mk.injEq, List.map_cons]
      constructor
      · rintro (⟨rfl, rfl⟩ | ⟨h1, h2⟩ | ⟨rfl, (⟨m', h2, rfl⟩ | ⟨h2, rfl⟩)⟩)
        · exact .inl ⟨he, .inl ⟨rfl, rfl⟩⟩
        · exact .inl ⟨h1, .inr h2⟩
        · exact .inr ⟨rfl, .inl ⟨m', .inr h2, rfl⟩⟩
        · refine .inr ⟨rfl, .inr ⟨?_, rfl⟩⟩
          rintro (h3 | h3)
          · exact he h3.symm
          · exact h2 h3
      · rintro (⟨h1, (⟨rfl, rfl⟩ | h2)⟩ | ⟨rfl, (⟨m', (⟨h2, -⟩ | h2), rfl⟩ | ⟨h2, rfl⟩)⟩)
        · exact .inl ⟨rfl, rfl⟩
        · exact .inr (.inl ⟨h1, h2⟩)
        · exact absurd h2.symm he
        · exact .inr (.inr ⟨rfl, .inl ⟨m', h2, rfl⟩⟩)
        · exact .inr (.inr ⟨rfl, .inr ⟨fun h3 => h2 (.inr h3), rfl⟩⟩)

theorem elemsOf_append (tags : List Tag) (u t : Tag) : elemsOf (tags ++ [u]) t = elemsOf tags t ++ (if u = t then [tags.length] else []) := by
  unfold elemsOf
  rw [List.length_append, List.length_singleton, List.range_succ, List.filter_append]
  congr 1
  · apply List.filter_congr
    intro k hk
    rw [List.getElem?_append_left (List.mem_range.mp hk)]
  · by_cases h : u = t <;> simp [h]

theorem tagged_append (tags : List Tag) (u : Tag) : tagged (tags ++ [u]) = addTag u tags.length (tagged tags) := by
  unfold tagged
  rw [List.zipIdx_append, List.foldl_append]
  simp

theorem elemsOf_ne_nil (tags : List Tag) (t : Tag) : elemsOf tags t ≠ [] ↔ t ∈ tags := by
  rw [List.mem_iff_getElem?]
  constructor
  · intro h
    obtain ⟨k, hk⟩ := List.exists_mem_of_ne_nil _ h
    unfold elemsOf at hk
    exact ⟨k, of_decide_eq_true (List.mem_filter.mp hk).2⟩
  · rintro ⟨k, hk⟩ e
    have : k ∈ elemsOf tags t := List.mem_filter.mpr ⟨List.mem_range.mpr (List.getElem?_eq_some_iff.mp hk).1, decide_eq_true hk⟩
    rw [e] at this
    simp at this

theorem tagged_spec (tags : List Tag) : ((tagged tags).map Prod.fst).Nodup ∧ ∀ t l, (t, l) ∈ tagged tags ↔ t ∈ tags ∧ l = elemsOf tags t := by
  induction tags using List.reverseRecOn with
  | nil => simp [tagged]
  | append_singleton tags u ih =>
    obtain ⟨i1, i2⟩ := ih
    rw [tagged_append]
    refine ⟨(addTag_keys u _ _ i1).1, ?_⟩
    intro t l
    have hk : u ∉ (tagged tags).map Prod.fst ↔ u ∉ tags := by
      constructor
      · intro h hu; exact h (List.mem_map.mpr ⟨(u, elemsOf tags u), (i2 _ _).mpr ⟨hu, rfl⟩, rfl⟩)
      · intro h hu
        obtain ⟨⟨a, b⟩, h1, rfl⟩ := List.mem_map.mp hu
        exact h ((i2 _ _).mp h1).1
    rw [addTag_mem u _ _ i1, elemsOf_append, hk]
    simp only [i2, List.mem_append, List.mem_singleton]
    by_cases htu : t = u
    · subst htu
      simp only [ne_eq, not_true_eq_false, false_and, true_and, false_or, or_true, if_true]
      constructor
      · rintro (⟨m, ⟨-, rfl⟩, rfl⟩ | ⟨h, rfl⟩)
        · rfl
        · have : elemsOf tags t = [] := by by_contra hc; exact h ((elemsOf_ne_nil tags t).mp hc)
          rw [this]; rfl
      · intro h
        by_cases ht : t ∈ tags
        · exact .inl ⟨_, ⟨ht, rfl⟩, h⟩
        · have : elemsOf tags t = [] := by by_contra hc; exact ht ((elemsOf_ne_nil tags t).mp hc)
          rw [this] at h
          exact .inr ⟨ht, h⟩
    · have hut : ¬ u = t := fun e => htu e.symm
      simp [htu, hut]

theorem call_other (a : Act K Tag Name) (t : Tag) (h : t ≠ a.tag) (l : List ℕ) (s : State K Name) : call a t l s = s := by
  cases a <;> exact if_neg h

theorem fold_others (a : Act K Tag Name) (d : List (Tag × List ℕ)) (h : ∀ e ∈ d, e.1 ≠ a.tag) (s : State K Name) :
    d.foldl (fun s e => call a e.1 e.2 s) s = s := by
  induction d generalizing s with
  | nil => rfl
  | cons e d ih =>
    rw [List.foldl_cons, call_other a e.1 (h e List.mem_cons_self)]
    exact ih (fun x hx => h x (List.mem_cons_of_mem _ hx)) s

theorem fold_one (a : Act K Tag Name) (d : List (Tag × List ℕ)) (hd : (d.map Prod.fst).Nodup) (l : List ℕ) (h : (a.tag, l) ∈ d) (s : State K Name) :
    d.foldl (fun s e => call a e.1 e.2 s) s = call a a.tag l s := by
  induction d generalizing s with
  | nil => simp at h
  | cons e d ih =>
    rw [List.map_cons, List.nodup_cons] at hd
    rw [List.foldl_cons]
    rcases List.mem_cons.mp h with rfl | h'
    · exact fold_others a d (fun x hx e => hd.1 (List.mem_map.mpr ⟨x, hx, e⟩)) _
    · have : e.1 ≠ a.tag := fun e' => hd.1 (e' ▸ List.mem_map_of_mem (f := Prod.fst) h')
      rw [call_other a e.1 this]
      exact ih hd.2 h' s

/-! ## Writing -/

theorem putV_map (q : ℕ → Cell K) (l : List ℕ) (hl : l.Nodup) (f : ℕ → Fin 3 → K) (k : ℕ) :
    putV q (l.map fun k => (k, f k)) k = if k ∈ l then { q k with v := f k } else q k := by
  unfold putV
  induction l generalizing q with
  | nil => simp
  | cons a l ih =>
    rw [List.nodup_cons] at hl
    rw [List.map_cons, List.foldl_cons, ih _ hl.2]
    by_cases ha : k = a
    · subst ha; simp [hl.1]
    · simp [List.mem_cons, ha]

theorem putC_map (q : ℕ → Cell K) (l : List ℕ) (hl : l.Nodup) (f : ℕ → K) (k : ℕ) :
    putC q (l.map fun k => (k, f k)) k = if k ∈ l then { q k with c := f k } else q k := by
  unfold putC
  induction l generalizing q with
  | nil => simp
  | cons a l ih =>
    rw [List.nodup_cons] at hl
    rw [List.map_cons, List.foldl_cons, ih _ hl.2]
    by_cases ha : k = a
    · subst ha; simp [hl.1]
    · simp [List.mem_cons, ha]

theorem setV_map (s : State K Name) (a : Name) (l : List ℕ) (hl : l.Nodup) (f : ℕ → Fin 3 → K) (q : Name) (k : ℕ) :
    setV s a (l.map fun k => (k, f k)) q k = if q = a then fromV (fun i => if k ∈ l then f k i else (s a k).v i) else s q k := by
  unfold setV
  by_cases h : q = a
  · subst h
    rw [Function.update_self, if_pos rfl, interpolate, putV_map _ _ hl]
    by_cases hk : k ∈ l <;> simp [hk, fromV]
  · rw [Function.update_of_ne h, if_neg h]

theorem setC_map (s : State K Name) (a : Name) (l : List ℕ) (hl : l.Nodup) (f : ℕ → K) (q : Name) (k : ℕ) :
    setC s a (l.map fun k => (k, f k)) q k = if q = a then fromC (if k ∈ l then f k else (s a k).c) else s q k := by
  unfold setC
  by_cases h : q = a
  · subst h
    rw [Function.update_self, if_pos rfl, extrapolate, putC_map _ _ hl]
    by_cases hk : k ∈ l <;> simp [hk, fromC]
  · rw [Function.update_of_ne h, if_neg h]

theorem elemsOf_nodup (tags : List Tag) (t : Tag) : (elemsOf tags t).Nodup := List.Nodup.filter _ List.nodup_range

theorem elemsOf_toFinset (tags : List Tag) (t : Tag) : (elemsOf tags t).toFinset = region tags t := by
  ext k
  simp [elemsOf, region]

theorem mem_elemsOf (tags : List Tag) (t : Tag) (k : ℕ) : k ∈ elemsOf tags t ↔ k ∈ region tags t := by
  rw [← elemsOf_toFinset, List.mem_toFinset]

theorem sum_elems (tags : List Tag) (t : Tag) (f : ℕ → K) : ((elemsOf tags t).map f).sum = ∑ k ∈ region tags t, f k := by
  rw [← elemsOf_toFinset, List.sum_toFinset f (elemsOf_nodup tags t)]

theorem card_elems (tags : List Tag) (t : Tag) : (elemsOf tags t).length = (region tags t).card := by
  rw [← elemsOf_toFinset, List.toFinset_card_of_nodup (elemsOf_nodup tags t)]

theorem average_three (l : List ℕ) (f : ℕ → Fin 3 → K) :
    average (l.flatMap fun j => [f j 0, f j 1, f j 2]) = (l.map fun j => f j 0 + f j 1 + f j 2).sum / (3 * (l.length : K)) := by
  unfold average
  have h1 : (l.flatMap fun j => [f j 0, f j 1, f j 2]).sum = (l.map fun j => f j 0 + f j 1 + f j 2).sum := by
    induction l with
    | nil => rfl
    | cons a l ih => rw [List.flatMap_cons, List.sum_append, ih]; simp [add_assoc]
  have h2 : (l.flatMap fun j => [f j 0, f j 1, f j 2]).length = 3 * l.length := by
    clear h1
    induction l with
    | nil => rfl
    | cons a l ih => rw [List.flatMap_cons, List.length_append, ih]; simp; omega
  rw [h1, h2]
  push_cast
  rfl

theorem one_act (tags : List Tag) (a : Act K Tag Name) (s : State K Name) :
    (tagged tags).foldl (fun s e => call a e.1 e.2 s) s = after tags s a := by
  obtain ⟨hn, hm⟩ := tagged_spec tags
  funext q k
  by_cases ht : a.tag ∈ tags
  · rw [fold_one a _ hn (elemsOf tags a.tag) ((hm _ _).mpr ⟨ht, rfl⟩)]
    have nd := elemsOf_nodup tags a.tag
    cases a with
    | set tag b x loc =>
      change tag ∈ tags at ht
      change (elemsOf tags tag).Nodup at nd
      change call _ tag (elemsOf tags tag) s q k = _
      cases loc <;> simp only [call, after, Act.tag, Act.answer, Act.loc, if_true, ht, and_true, newV, newC]
      · rw [setV_map s b _ nd (fun _ _ => x)]
        by_cases h : q = b <;> simp [h, mem_elemsOf]
      · rw [setC_map s b _ nd (fun _ => x)]
        by_cases h : q = b <;> simp [h, mem_elemsOf]
    | add tag b q0 x av loc =>
      change tag ∈ tags at ht
      change (elemsOf tags tag).Nodup at nd
      change call _ tag (elemsOf tags tag) s q k = _
      cases loc <;> cases av <;> simp only [call, after, Act.tag, Act.answer, Act.loc, if_true, ht, and_true, newV, newC]
      · rw [setV_map s b _ nd (fun k i => (s q0 k).v i + x)]
        by_cases h : q = b <;> simp [h, mem_elemsOf]
      · rw [average_three _ fun j => (s q0 j).v, sum_elems, card_elems, setV_map s b _ nd (fun _ _ => _)]
        by_cases h : q = b <;> simp [h, mem_elemsOf]
      · rw [setC_map s b _ nd (fun k => (s q0 k).c + x)]
        by_cases h : q = b <;> simp [h, mem_elemsOf]
      · unfold average
        rw [List.length_map, sum_elems, card_elems, setC_map s b _ nd (fun _ => _)]
        by_cases h : q = b <;> simp [h, mem_elemsOf]
    | sum tag b other loc =>
      change tag ∈ tags at ht
      change (elemsOf tags tag).Nodup at nd
      change call _ tag (elemsOf tags tag) s q k = _
      cases loc <;> simp only [call, after, Act.tag, Act.answer, Act.loc, if_true, ht, and_true, newV, newC]
      · rw [setV_map s b _ nd (fun k i => (s b k).v i + (s other k).v i)]
        by_cases h : q = b <;> simp [h, mem_elemsOf]
      · rw [setC_map s b _ nd (fun k => (s b k).c + (s other k).c)]
        by_cases h : q = b <;> simp [h, mem_elemsOf]
  · rw [fold_others a _ (fun e he h => ht (h ▸ ((hm e.1 e.2).mp he).1))]
    unfold after
    rw [if_neg fun h => ht h.2]

/-- C124. Actions are done one after the other in the order of the list, each as `after` says, whatever the order of tags. -/
theorem C124_after (tags : List Tag) (acts : List (Act K Tag Name)) (s : State K Name) :
    setTagRegion tags acts s = acts.foldl (after tags) s := by
  unfold setTagRegion
  simp only [one_act]

/-- C124. Triangles whose tag is not named by any action for a quantity keep all its values at vertices, if values are set at vertices. -/
theorem C124_others (tags : List Tag) (acts : List (Act K Tag Name)) (s : State K Name) (q : Name) (k : ℕ)
    (hl : ∀ a ∈ acts, a.answer = q → a.loc = .vertices) (hk : ∀ a ∈ acts, a.answer = q → tags[k]? ≠ some a.tag) :
    (setTagRegion tags acts s q k).v = (s q k).v := by
  rw [C124_after]
  induction acts generalizing s with
  | nil => rfl
  | cons a acts ih =>
    rw [List.foldl_cons, ih _ (fun b hb => hl b (List.mem_cons_of_mem _ hb)) fun b hb => hk b (List.mem_cons_of_mem _ hb)]
    unfold after
    by_cases h : q = a.answer ∧ a.tag ∈ tags
    · rw [if_pos h, hl a List.mem_cons_self h.1.symm]
      have : k ∉ region tags a.tag := by
        unfold region
        rw [Finset.mem_filter]
        exact fun e => hk a List.mem_cons_self h.1.symm e.2
      simp [this, fromV]
    · rw [if_neg h]

end Verif.TagRegion
