import Verif.Csv.Props

set_option linter.unusedSectionVars false

/-! # Lemmas about rows of polygons -/

namespace Verif.Csv

variable {C K : Type} [DecidableEq C]

theorem get_push {β : Type} (k k' : C) (v : β) (d : List (C × List β)) :
    get k' (push k v d) = if k' = k then some ((get k d).getD [] ++ [v]) else get k' d := by
  induction d with
  | nil =>
    by_cases h : k' = k
    · subst h; simp [push, get]
    · simp [push, get, h, Ne.symm h]
  | cons x d ih =>
    obtain ⟨a, b⟩ := x
    rw [push]
    by_cases h : a = k
    · subst h
      by_cases h' : k' = a
      · subst h'; simp [get]
      · simp [get, h', Ne.symm h']
    · rw [if_neg h, get, ih]
      by_cases h' : k' = k
      · subst h'; simp [get, h]
      · simp [get, h']

theorem get_put {β : Type} (k k' : C) (v : β) (d : List (C × β)) : get k' (put k v d) = if k' = k then some v else get k' d := by
  induction d with
  | nil =>
    by_cases h : k' = k
    · subst h; simp [put, get]
    · simp [put, get, h, Ne.symm h]
  | cons x d ih =>
    obtain ⟨a, b⟩ := x
    rw [put]
    by_cases h : a = k
    · subst h
      by_cases h' : k' = a
      · subst h'; simp [get]
      · simp [get, h', Ne.symm h']
    · rw [if_neg h, get, ih]
      by_cases h' : k' = k
      · subst h'; simp [h]
      · simp [get, h']

theorem together_snoc (l : List (Row C)) (r : Row C) :
    Together (l ++ [r]) ↔ Together l ∧ (r.1 ∈ l.map Prod.fst → l.getLast?.map Prod.fst = some r.1) := by
  constructor
  · intro h
    have up : ∀ (i : ℕ) a, l[i]? = some a → (l ++ [r])[i]? = some a := by
      intro i a hi
      have := (List.getElem?_eq_some_iff.mp hi).1
      rw [List.getElem?_append_left this]; exact hi
    refine ⟨fun i j k a b c h1 h2 h3 h4 h5 => h i j k a b c h1 h2 (up i a h3) (up j b h4) (up k c h5), ?_⟩
    intro hm
    obtain ⟨a, ha, e⟩ := List.mem_map.mp hm
    obtain ⟨i, hi⟩ := List.getElem?_of_mem ha
    have hil := (List.getElem?_eq_some_iff.mp hi).1
    rw [List.getLast?_eq_getElem?]
    have hlast : l[l.length - 1]? = some (l[l.length - 1]'(by omega)) := List.getElem?_eq_getElem (by omega)
    rw [hlast, Option.map_some]
    congr 1
    by_cases hh : i = l.length - 1
    · subst hh
      rw [hlast] at hi
      cases hi
      exact e
    · have := h i (l.length - 1) l.length a _ r (by omega) (by omega) (up _ _ hi) (up _ _ hlast) (by simp) e
      rw [this, e]
  · rintro ⟨h, hl⟩ i j k a b c h1 h2 h3 h4 h5 e
    by_cases hk : k < l.length
    · rw [List.getElem?_append_left (by omega)] at h3 h4 h5
      exact h i j k a b c h1 h2 h3 h4 h5 e
    · have hkk : k = l.length := by
        have := (List.getElem?_eq_some_iff.mp h5).1
        simp at this; omega
      subst hkk
      simp at h5
      subst h5
      rw [List.getElem?_append_left (by omega)] at h3 h4
      have hm : r.1 ∈ l.map Prod.fst := by rw [← e]; exact List.mem_map_of_mem (List.mem_of_getElem? h3)
      have := hl hm
      rw [List.getLast?_eq_getElem?] at this
      have hlast : l[l.length - 1]? = some (l[l.length - 1]'(by omega)) := List.getElem?_eq_getElem (by omega)
      rw [hlast, Option.map_some] at this
      have hlr := Option.some.inj this
      by_cases hh : j = l.length - 1
      · subst hh
        rw [hlast] at h4
        cases h4
        rw [hlr, e]
      · exact h i j (l.length - 1) a b _ h1 (by omega) h3 h4 hlast (by rw [hlr, e])

theorem same_snoc (l : List (Row C)) (r : Row C) : Same (l ++ [r]) ↔ Same l ∧ ∀ a ∈ l, a.1 = r.1 → a.2.2.2 = r.2.2.2 := by
  constructor
  · intro h
    exact ⟨fun a ha b hb => h a (List.mem_append_left _ ha) b (List.mem_append_left _ hb),
      fun a ha e => h a (List.mem_append_left _ ha) r (by simp) e⟩
  · rintro ⟨h1, h2⟩ a ha b hb e
    rw [List.mem_append, List.mem_singleton] at ha hb
    rcases ha with ha | rfl <;> rcases hb with hb | rfl
    · exact h1 a ha b hb e
    · exact h2 a ha e
    · exact (h2 b hb e.symm).symm
    · rfl

/-- State after rows. -/
structure Inv (num : C → Option K) (l : List (Row C)) (s : Poly C K) : Prop where
  polygons : ∀ id, get id s.polygons = if id ∈ l.map Prod.fst then some (outline num l id) else none
  values : ∀ id, id ∉ l.map Prod.fst → get id s.values = none
  value : ∀ r ∈ l, get r.1 s.values = some r.2.2.2
  past : ∀ id, id ∈ s.past ↔ id ∈ l.map Prod.fst ∧ s.last ≠ some id
  last : s.last = l.getLast?.map Prod.fst
  excluded : s.excluded = []

theorem outline_snoc (num : C → Option K) (l : List (Row C)) (r : Row C) (p : K × K) (hp : point num r = some p) (id : C) :
    outline num (l ++ [r]) id = if r.1 = id then outline num l id ++ [p] else outline num l id := by
  unfold outline
  rw [List.filter_append, List.filterMap_append]
  by_cases h : r.1 = id
  · rw [if_pos h]; simp [h, hp]
  · rw [if_neg h]; simp [h]

theorem if_snoc {β : Type} (l : List (Row C)) (r : Row C) (id : C) (hi : id ≠ r.1) (x y : β) :
    (if id ∈ l.map Prod.fst then x else y) = if id ∈ (l ++ [r]).map Prod.fst then x else y := by
  by_cases h : id ∈ l.map Prod.fst
  · rw [if_pos h, if_pos (by rw [List.map_append, List.mem_append]; exact Or.inl h)]
  · rw [if_neg h, if_neg (by rw [List.map_append, List.mem_append]; rintro (hc | hc); exacts [h hc, hi (by simpa using hc)])]

theorem outline_nil (num : C → Option K) (l : List (Row C)) (id : C) (h : id ∉ l.map Prod.fst) : outline num l id = [] := by
  unfold outline
  rw [List.filter_eq_nil_iff.mpr]
  · rfl
  · intro r hr e
    have e' : r.1 = id := by simpa using e
    exact h (List.mem_map.mpr ⟨r, hr, e'⟩)

theorem polyRow_step (num : C → Option K) {l : List (Row C)} {s : Poly C K} (h : Inv num l s) (hp : Proper num l) (r : Row C) :
    (Proper num (l ++ [r]) ∧ ∃ s', polyRow num none s r.1 r.2.1 r.2.2.1 r.2.2.2 = .ok s' ∧ Inv num (l ++ [r]) s') ∨
      (¬ Proper num (l ++ [r]) ∧ ∃ e, polyRow num none s r.1 r.2.1 r.2.2.1 r.2.2.2 = .error e) := by
  obtain ⟨id, e, n, v⟩ := r
  simp only
  have hpr : Proper num (l ++ [(id, e, n, v)]) ↔
      (id ∈ l.map Prod.fst → s.last = some id) ∧ (∀ a ∈ l, a.1 = id → a.2.2.2 = v) ∧ (point num (id, e, n, v)).isSome := by
    unfold Proper
    rw [together_snoc, same_snoc, h.last]
    constructor
    · rintro ⟨⟨-, h1⟩, ⟨-, h2⟩, h3⟩
      exact ⟨h1, h2, h3 _ (by simp)⟩
    · rintro ⟨h1, h2, h3⟩
      refine ⟨⟨hp.1, h1⟩, ⟨hp.2.1, h2⟩, ?_⟩
      intro r hr
      rw [List.mem_append, List.mem_singleton] at hr
      rcases hr with hr | rfl
      · exact hp.2.2 r hr
      · exact h3
  rw [hpr, polyRow]
  by_cases h1 : id ∈ s.past
  · right
    rw [if_pos h1]
    have := (h.past id).mp h1
    exact ⟨fun hh => this.2 (hh.1 this.1), _, rfl⟩
  · rw [if_neg h1]
    have hlast : id ∈ l.map Prod.fst → s.last = some id := by
      intro hm
      by_contra hc
      exact h1 ((h.past id).mpr ⟨hm, hc⟩)
    have hfresh : (get id s.polygons).isNone = !decide (id ∈ l.map Prod.fst) := by
      rw [h.polygons id]
      by_cases hm : id ∈ l.map Prod.fst
      · rw [if_pos hm]; simp [hm]
      · rw [if_neg hm]; simp [hm]
    rw [hfresh]
    cases hx : num e with
    | none =>
      right
      exact ⟨fun hh => by simpa [point, hx] using hh.2.2, _, rfl⟩
    | some x =>
      cases hy : num n with
      | none =>
        right
        exact ⟨fun hh => by simpa [point, hx, hy] using hh.2.2, _, rfl⟩
      | some y =>
        have hpt : point num (id, e, n, v) = some (x, y) := by simp [point, hx, hy]
        simp only [hpt, Option.isSome_some, and_true]
        by_cases hm : id ∈ l.map Prod.fst
        · obtain ⟨a, ha, hae⟩ := List.mem_map.mp hm
          have hv := h.value a ha
          rw [hae] at hv
          simp only [decide_eq_true hm, Bool.not_true, Bool.false_eq_true, if_false]
          rw [hv]
          by_cases hav : a.2.2.2 = v
          · left
            rw [if_pos (by rw [hav])]
            refine ⟨⟨hlast, ?_⟩, _, rfl, ?_⟩
            · intro b hb hbe
              rw [← hav]
              exact hp.2.1 b hb a ha (by rw [hbe, hae])
            · refine ⟨?_, ?_, ?_, ?_, ?_, ?_⟩
              · intro id'
                rw [get_push, h.polygons id, if_pos hm, Option.getD_some, outline_snoc num l _ _ hpt]
                by_cases hi : id' = id
                · subst hi; simp
                · rw [if_neg hi, h.polygons id', if_neg (Ne.symm hi)]
                  exact if_snoc l _ id' hi _ _
              · intro id' hid
                exact h.values id' (by intro hc; exact hid (by simp only [List.map_append, List.mem_append]; exact Or.inl hc))
              · intro r hr
                rw [List.mem_append, List.mem_singleton] at hr
                rcases hr with hr | rfl
                · exact h.value r hr
                · show get id s.values = some v
                  rw [hv, hav]
              · intro id'
                show id' ∈ s.past ↔ _ ∧ some id ≠ some id'
                rw [h.past id', hlast hm]
                simp only [List.map_append, List.mem_append, List.map_cons, List.map_nil, List.mem_singleton, ne_eq, Option.some.injEq]
                constructor
                · rintro ⟨h2, h3⟩; exact ⟨Or.inl h2, h3⟩
                · rintro ⟨h2 | h2, h3⟩
                  · exact ⟨h2, h3⟩
                  · exact absurd h2.symm h3
              · simp
              · simp [h.excluded]
          · right
            rw [if_neg (by intro hc; exact hav (Option.some.inj hc))]
            exact ⟨fun hh => hav (hh.2 a ha hae), _, rfl⟩
        · left
          simp only [decide_eq_false hm, Bool.not_false, if_true]
          rw [get_put, if_pos rfl, if_pos rfl]
          refine ⟨⟨fun hc => absurd hc hm, fun a ha hae => absurd (List.mem_map.mpr ⟨a, ha, hae⟩) hm⟩, _, rfl, ?_⟩
          refine ⟨?_, ?_, ?_, ?_, ?_, ?_⟩
          · intro id'
            rw [get_push, h.polygons id, if_neg hm, Option.getD_none, outline_snoc num l _ _ hpt]
            by_cases hi : id' = id
            · subst hi; rw [outline_nil num l id' hm]; simp
            · rw [if_neg hi, h.polygons id', if_neg (Ne.symm hi)]
              exact if_snoc l _ id' hi _ _
          · intro id' hid
            simp only [List.map_append, List.mem_append, List.map_cons, List.map_nil, List.mem_singleton, not_or] at hid
            show get id' (put id v s.values) = none
            rw [get_put, if_neg hid.2]
            exact h.values id' hid.1
          · intro r hr
            rw [List.mem_append, List.mem_singleton] at hr
            show get r.1 (put id v s.values) = some r.2.2.2
            rcases hr with hr | rfl
            · rw [get_put, if_neg (by intro hc; exact hm (List.mem_map.mpr ⟨r, hr, hc⟩))]
              exact h.value r hr
            · rw [get_put, if_pos rfl]
          · intro id'
            show id' ∈ (match s.last with
              | some l => l :: s.past
              | none => s.past) ↔ _ ∧ some id ≠ some id'
            have hmem : id' ∈ (l ++ [(id, e, n, v)]).map Prod.fst ∧ some id ≠ some id' ↔ id' ∈ l.map Prod.fst := by
              simp only [List.map_append, List.mem_append, List.map_cons, List.map_nil, List.mem_singleton, ne_eq, Option.some.injEq]
              constructor
              · rintro ⟨h2 | h2, h3⟩
                · exact h2
                · exact absurd h2.symm h3
              · intro h2
                exact ⟨Or.inl h2, by rintro rfl; exact hm h2⟩
            rw [hmem]
            cases hs : s.last with
            | none =>
              show id' ∈ s.past ↔ _
              rw [h.past id', hs]
              simp
            | some w =>
              show id' ∈ w :: s.past ↔ _
              have hw : w ∈ l.map Prod.fst := by
                have := h.last
                rw [hs] at this
                cases hg : l.getLast? with
                | none => rw [hg] at this; cases this
                | some q =>
                  rw [hg] at this
                  cases this
                  exact List.mem_map_of_mem (List.mem_of_getLast? hg)
              rw [List.mem_cons, h.past id', hs]
              constructor
              · rintro (rfl | h2)
                · exact hw
                · exact h2.1
              · intro h2
                by_cases hc : id' = w
                · exact Or.inl hc
                · exact Or.inr ⟨h2, by intro h3; exact hc (Option.some.inj h3).symm⟩
          · simp
          · simp [h.excluded]

theorem proper_prefix {num : C → Option K} {a b : List (Row C)} (h : Proper num (a ++ b)) : Proper num a := by
  have up : ∀ (i : ℕ) x, a[i]? = some x → (a ++ b)[i]? = some x := by
    intro i x hi
    have := (List.getElem?_eq_some_iff.mp hi).1
    rw [List.getElem?_append_left this]; exact hi
  exact ⟨fun i j k x y z h1 h2 h3 h4 h5 => h.1 i j k x y z h1 h2 (up i x h3) (up j y h4) (up k z h5),
    fun x hx y hy => h.2.1 x (List.mem_append_left _ hx) y (List.mem_append_left _ hy), fun r hr => h.2.2 r (List.mem_append_left _ hr)⟩

theorem polyRows_all (num : C → Option K) (l done : List (Row C)) {s : Poly C K} (h : Inv num done s) (hp : Proper num done) :
    (Proper num (done ++ l) ∧ ∃ s', polyRows num none s l = .ok s' ∧ Inv num (done ++ l) s') ∨
      (¬ Proper num (done ++ l) ∧ ∃ e, polyRows num none s l = .error e) := by
  induction l generalizing done s with
  | nil => left; exact ⟨by simpa using hp, s, rfl, by simpa using h⟩
  | cons r l ih =>
    have e : done ++ r :: l = (done ++ [r]) ++ l := by simp
    rw [e]
    obtain ⟨id, x, y, v⟩ := r
    rcases polyRow_step num h hp (id, x, y, v) with ⟨hpp, s', hs, hi⟩ | ⟨hpp, er, hs⟩
    · simp only at hs
      rw [polyRows, hs]
      exact ih (done ++ [(id, x, y, v)]) hi hpp
    · simp only at hs
      right
      rw [polyRows, hs]
      exact ⟨fun hc => hpp (proper_prefix hc), er, rfl⟩

theorem inv_nil (num : C → Option K) : Inv num [] (⟨[], [], [], none, []⟩ : Poly C K) :=
  ⟨by simp [get], by simp [get], by simp, by simp, rfl, rfl⟩

theorem proper_nil (num : C → Option K) : Proper num ([] : List (Row C)) := ⟨by intro i j k a b c _ _ h; simp at h, by intro a h; simp at h, by simp⟩

end Verif.Csv
