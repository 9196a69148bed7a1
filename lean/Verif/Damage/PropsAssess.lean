import Verif.Damage.Props

/-! # C112: damage, collapse and losses -/

set_option linter.unusedSectionVars false

namespace Verif.Damage

variable {K : Type} [Field K] [LinearOrder K] [IsStrictOrderedRing K] [FloorRing K]

theorem mapM_some_iff {α β : Type} (f : α → Option β) (l : List α) : (∃ r, l.mapM f = some r) ↔ ∀ a ∈ l, ∃ b, f a = some b := by
  induction l with
  | nil => simp
  | cons a l ih =>
    rw [List.mapM_cons]
    constructor
    · rintro ⟨r, hr⟩ b hb
      cases h1 : f a with
      | none => rw [h1] at hr; cases hr
      | some v =>
        cases h2 : l.mapM f with
        | none => rw [h1, h2] at hr; cases hr
        | some w =>
          rcases List.mem_cons.mp hb with rfl | hb
          · exact ⟨v, h1⟩
          · exact ih.mp ⟨w, h2⟩ b hb
    · intro h
      obtain ⟨v, hv⟩ := h a List.mem_cons_self
      obtain ⟨w, hw⟩ := ih.mpr fun b hb => h b (List.mem_cons_of_mem _ hb)
      exact ⟨v :: w, by rw [hv, hw]; rfl⟩

theorem mapM_getElem {α β : Type} (f : α → Option β) (l : List α) (r : List β) (h : l.mapM f = some r) (i : ℕ) : r[i]? = l[i]?.bind f := by
  induction l generalizing r i with
  | nil => simp at h; subst h; simp
  | cons a l ih =>
    rw [List.mapM_cons] at h
    cases h1 : f a with
    | none => rw [h1] at h; cases h
    | some v =>
      cases h2 : l.mapM f with
      | none => rw [h1, h2] at h; cases h
      | some w =>
        rw [h1, h2] at h
        cases h
        cases i with
        | zero => simp [h1]
        | succ i => simpa using ih w h2 i

/-- What is known of the houses which collapse. -/
theorem collapse_classes (rnd : ℕ → ℕ) (hs : List (House K)) :
    ∃ is info, collapse rnd (classes hs) = some (is, info) ∧ is.Nodup ∧
      (∀ i ∈ is, ∃ h, hs[i]? = some h ∧ chance h.depth h.shore ≠ 0) ∧
      (∀ p, p ≠ 0 → Nearest ((((List.range hs.length).filter fun i => decide (atRisk hs p i)).length : K) * p)
        ((((List.range hs.length).filter fun i => decide (atRisk hs p i) && decide (i ∈ is)).length : ℕ) : ℤ)) ∧
      ∀ i h, hs[i]? = some h → (info.find? fun x => x.1 == i).map (·.2) =
        if chance h.depth h.shore = 0 then none
        else some (chance h.depth h.shore,
          ((((List.range hs.length).filter fun j => decide (atRisk hs (chance h.depth h.shore) j) && decide (j ∈ is)).length : ℕ) : ℤ),
          ((List.range hs.length).filter fun j => decide (atRisk hs (chance h.depth h.shore) j)).length) := by
  have S := classes_sorted hs
  have pr : ∀ i p, prob hs i = some p ↔ p ≠ 0 ∧ atRisk hs p i := by
    intro i p
    unfold prob atRisk
    cases hs[i]? with
    | none => simp
    | some h =>
      rw [Option.bind_some, probability_chance]
      by_cases h0 : chance h.depth h.shore = 0
      · rw [if_pos h0]
        constructor
        · intro h; cases h
        · rintro ⟨hp, h', e, e'⟩
          cases e
          exact absurd (e'.symm.trans h0) hp
      · rw [if_neg h0, Option.some.injEq]
        constructor
        · rintro rfl; exact ⟨h0, h, rfl, rfl⟩
        · rintro ⟨hp, h', e, e'⟩
          cases e; exact e'
  have mem : ∀ e ∈ classes hs, ∀ i, i ∈ e.2 ↔ i < hs.length ∧ prob hs i = some e.1 := by
    intro e he i
    rw [S.lists e he, List.mem_filter, List.mem_range, decide_eq_true_iff]
  have ne : ∀ e ∈ classes hs, ∃ i, prob hs i = some e.1 := by
    intro e he
    by_contra hc
    push Not at hc
    -- every class has a house
    have key : ∀ (l : List (House K × ℕ)) (d : List (K × List ℕ)), (∀ e ∈ d, e.2 ≠ []) →
        ∀ e ∈ l.foldl (fun d h => match probability h.1 with
          | none => d
          | some p => enter p h.2 d) d, e.2 ≠ [] := by
      intro l
      induction l with
      | nil => intro d hd; exact hd
      | cons x l ih =>
        intro d hd
        rw [List.foldl_cons]
        apply ih
        cases probability x.1 with
        | none => exact hd
        | some p =>
          simp only
          clear ih
          induction d with
          | nil => intro e he; rw [enter, List.mem_singleton] at he; rw [he]; simp
          | cons f d ihd =>
            obtain ⟨q, m⟩ := f
            intro e he
            rw [enter] at he
            by_cases hq : q = p
            · rw [if_pos hq] at he
              rcases List.mem_cons.mp he with rfl | he
              · simp
              · exact hd e (List.mem_cons_of_mem _ he)
            · rw [if_neg hq] at he
              rcases List.mem_cons.mp he with rfl | he
              · exact hd _ List.mem_cons_self
              · exact ihd (fun e he => hd e (List.mem_cons_of_mem _ he)) e he
    have := key hs.zipIdx [] (by simp) e he
    obtain ⟨i, hi⟩ := List.exists_mem_of_ne_nil _ this
    exact hc i ((mem e he i).mp hi).2
  have hp : ∀ e ∈ classes hs, 0 ≤ e.1 ∧ e.1 ≤ 1 := by
    intro e he
    obtain ⟨i, hi⟩ := ne e he
    obtain ⟨-, h, -, e'⟩ := (pr i e.1).mp hi
    rw [← e']; exact chance_bounds _ _
  have hl : ∀ e ∈ classes hs, e.2.Nodup := by
    intro e he
    rw [S.lists e he]
    exact List.nodup_range.filter _
  have hd : (classes hs).Pairwise fun e f => ∀ i ∈ e.2, i ∉ f.2 := by
    have := List.pairwise_map.mp S.keys
    refine this.imp_of_mem ?_
    intro e f he hf hne i hi hi'
    have h1 := ((mem e he i).mp hi).2
    have h2 := ((mem f hf i).mp hi').2
    rw [h1] at h2
    exact hne (Option.some.inj h2)
  obtain ⟨is, info, c1, c2, c3, c4, c5, c6⟩ := collapse_spec rnd (classes hs) hp hl hd
  have lt : ∀ i p, atRisk hs p i → i < hs.length := by
    rintro i p ⟨h, e, -⟩
    exact (List.getElem?_eq_some_iff.mp e).1
  have lst : ∀ e ∈ classes hs, e.2 = (List.range hs.length).filter fun i => decide (atRisk hs e.1 i) := by
    intro e he
    rw [S.lists e he]
    obtain ⟨i, hi⟩ := ne e he
    have h0 := ((pr i e.1).mp hi).1
    apply List.filter_congr
    intro j _
    rw [decide_eq_decide, pr]
    exact ⟨And.right, fun h => ⟨h0, h⟩⟩
  have cnt : ∀ e ∈ classes hs, ((((List.range hs.length).filter fun i => decide (atRisk hs e.1 i) && decide (i ∈ is)).length : ℕ) : ℤ) =
      roundEven ((e.2.length : K) * e.1) := by
    intro e he
    rw [← c4 e he]
    congr 1
    apply List.Perm.length_eq
    rw [List.perm_ext_iff_of_nodup (List.nodup_range.filter _) (c2.filter _)]
    intro i
    rw [List.mem_filter, List.mem_filter, List.mem_range, Bool.and_eq_true, decide_eq_true_iff, decide_eq_true_iff, decide_eq_true_iff,
      lst e he, List.mem_filter, List.mem_range, decide_eq_true_iff]
    constructor
    · rintro ⟨h1, h2, h3⟩; exact ⟨h3, h1, h2⟩
    · rintro ⟨h3, h1, h2⟩; exact ⟨h1, h2, h3⟩
  refine ⟨is, info, c1, c2, ?_, ?_, ?_⟩
  · intro i hi
    obtain ⟨e, he, h⟩ := c3 i hi
    obtain ⟨h0, h', e1, e2⟩ := (pr i e.1).mp ((mem e he i).mp h).2
    exact ⟨h', e1, by rw [e2]; exact h0⟩
  · intro p hp0
    by_cases hm : p ∈ (classes hs).map Prod.fst
    · obtain ⟨e, he, rfl⟩ := List.mem_map.mp hm
      rw [cnt e he, ← lst e he]
      exact roundEven_nearest _
    · have none : ∀ i, ¬ atRisk hs p i := by
        intro i hi
        exact hm (S.all i (lt i p hi) p ((pr i p).mpr ⟨hp0, hi⟩))
      have e1 : ((List.range hs.length).filter fun i => decide (atRisk hs p i)) = [] := by
        rw [List.filter_eq_nil_iff]; intro i _; simpa using none i
      have e2 : ((List.range hs.length).filter fun i => decide (atRisk hs p i) && decide (i ∈ is)) = [] := by
        rw [List.filter_eq_nil_iff]; intro i _; simp [none i]
      rw [e1, e2]
      simp only [List.length_nil, Nat.cast_zero, zero_mul]
      constructor
      · simp
      · intro _; exact Even.zero
  · intro i h hi
    by_cases h0 : chance h.depth h.shore = 0
    · rw [if_pos h0, c6 i, Option.map_none]
      intro e he hie
      obtain ⟨h1, h', e1, e2⟩ := (pr i e.1).mp ((mem e he i).mp hie).2
      rw [hi] at e1
      cases e1
      exact h1 (e2.symm.trans h0)
    · rw [if_neg h0]
      have hr : atRisk hs (chance h.depth h.shore) i := ⟨h, hi, rfl⟩
      obtain ⟨e, he, e1⟩ := List.mem_map.mp (S.all i (lt i _ hr) _ ((pr i _).mpr ⟨h0, hr⟩))
      have hie : i ∈ e.2 := by
        rw [lst e he, List.mem_filter, List.mem_range, decide_eq_true_iff, e1]
        exact ⟨lt i _ hr, hr⟩
      rw [c5 e he i hie, Option.map_some, ← cnt e he, ← e1]
      have := congrArg List.length (lst e he)
      rw [← this]

/-- **C112.** An assessment is made unless some depth exceeds 1000 m, whatever the random numbers. -/
theorem C112_assessed (rnd : ℕ → ℕ) (hs : List (House K)) : (∃ r, assess rnd hs = some r) ↔ ∀ h ∈ hs, h.depth ≤ 1000 := by
  obtain ⟨is, info, c, -⟩ := collapse_classes rnd hs
  have key := mapM_some_iff damage hs
  simp only [damage_some] at key
  rw [← key]
  unfold assess
  rw [c]
  constructor
  · rintro ⟨r, hr⟩
    cases h : hs.mapM damage with
    | none => rw [h] at hr; cases hr
    | some v => exact ⟨v, rfl⟩
  · rintro ⟨r, hr⟩
    rw [hr]
    exact ⟨_, rfl⟩

/-- **C112.** What is reported of a structure: one which has collapsed was in danger and is lost with its contents; any other has the damage of
its curves at its depth, or none at all if the water did not reach the floor; the losses are these fractions of the values. -/
theorem C112_house (rnd : ℕ → ℕ) (hs : List (House K)) (r : Result K) (hr : assess rnd hs = some r) (i : ℕ) (h : House K) (hi : hs[i]? = some h) :
    ∃ s c b, r.structDamage[i]? = some s ∧ r.contentsDamage[i]? = some c ∧ r.collapsed[i]? = some b ∧
      r.structLoss[i]? = some (s * h.cost) ∧ r.contentsLoss[i]? = some (c * h.contents) ∧ r.inundated[i]? = some (decide (0 ≤ h.depth)) ∧
      (b = true → chance h.depth h.shore ≠ 0 ∧ s = 1 ∧ c = 1) ∧
      (b = false → (h.depth < 0 → s = 0 ∧ c = 0) ∧
        (0 ≤ h.depth → Line (curve (structTable h.wall)) h.depth s ∧ Line (curve contentsTable) h.depth c)) := by
  obtain ⟨is, info, c, c2, c3, -⟩ := collapse_classes rnd hs
  unfold assess at hr
  cases hd : hs.mapM damage with
  | none => rw [hd] at hr; cases hr
  | some ds =>
    rw [hd, c] at hr
    simp only [Option.some.injEq] at hr
    have hlt : i < hs.length := (List.getElem?_eq_some_iff.mp hi).1
    have hdi := mapM_getElem damage hs ds hd i
    rw [hi, Option.bind_some] at hdi
    obtain ⟨⟨s0, c0, b0⟩, hdh⟩ := (damage_some h).mpr ((C112_assessed rnd hs).mp ⟨r, by unfold assess; rw [hd, c, ← hr]⟩ h (List.mem_of_getElem? hi))
    rw [hdh] at hdi
    obtain ⟨q1, q2, q3⟩ := damage_cases h s0 c0 b0 hdh
    have z1 : ((ds.zipIdx).map fun d => if d.2 ∈ is then (1 : K) else d.1.1)[i]? = some (if i ∈ is then 1 else s0) := by
      rw [List.getElem?_map, List.getElem?_zipIdx, hdi]; simp
    have z2 : ((ds.zipIdx).map fun d => if d.2 ∈ is then (1 : K) else d.1.2.1)[i]? = some (if i ∈ is then 1 else c0) := by
      rw [List.getElem?_map, List.getElem?_zipIdx, hdi]; simp
    rw [← hr]
    refine ⟨if i ∈ is then 1 else s0, if i ∈ is then 1 else c0, decide (i ∈ is), z1, z2, ?_, ?_, ?_, ?_, ?_, ?_⟩
    · simp [List.getElem?_range hlt]
    · rw [List.getElem?_zipWith, z1, hi]
    · rw [List.getElem?_zipWith, z2, hi]
    · rw [List.getElem?_map, hdi, ← q1]; rfl
    · intro hb
      have hm : i ∈ is := by simpa using hb
      obtain ⟨h', e1, e2⟩ := c3 i hm
      rw [hi] at e1
      cases e1
      exact ⟨e2, if_pos hm, if_pos hm⟩
    · intro hb
      have hm : i ∉ is := by simpa using hb
      rw [if_neg hm, if_neg hm]
      exact ⟨q2, q3⟩

/-- **C112.** Of the structures with the same probability `p` of collapse, `p` times their number collapse, to the nearest whole number, whatever the
random numbers; none collapses in water not deeper than a hair. -/
theorem C112_collapses (rnd : ℕ → ℕ) (hs : List (House K)) (r : Result K) (hr : assess rnd hs = some r) (p : K) (hp : p ≠ 0) :
    Nearest ((((List.range hs.length).filter fun i => decide (atRisk hs p i)).length : K) * p)
      ((((List.range hs.length).filter fun i => decide (atRisk hs p i) && decide (r.collapsed[i]? = some true)).length : ℕ) : ℤ) := by
  obtain ⟨is, info, c, -, -, c4, -⟩ := collapse_classes rnd hs
  unfold assess at hr
  cases hd : hs.mapM damage with
  | none => rw [hd] at hr; cases hr
  | some ds =>
    rw [hd, c] at hr
    simp only [Option.some.injEq] at hr
    have e : ((List.range hs.length).filter fun i => decide (atRisk hs p i) && decide (r.collapsed[i]? = some true)) =
        (List.range hs.length).filter fun i => decide (atRisk hs p i) && decide (i ∈ is) := by
      apply List.filter_congr
      intro i hi
      congr 1
      rw [decide_eq_decide, ← hr]
      simp [List.getElem?_range (List.mem_range.mp hi)]
    rw [e]
    exact c4 p hp

/-- **C112.** The note beside a structure gives the probability of its collapse, how many of those with this probability collapse and how many
there are. -/
theorem C112_info (rnd : ℕ → ℕ) (hs : List (House K)) (r : Result K) (hr : assess rnd hs = some r) (i : ℕ) (h : House K) (hi : hs[i]? = some h) :
    r.info[i]? = some (if chance h.depth h.shore = 0 then none
      else some (chance h.depth h.shore,
        ((((List.range hs.length).filter fun j =>
          decide (atRisk hs (chance h.depth h.shore) j) && decide (r.collapsed[j]? = some true)).length : ℕ) : ℤ),
        ((List.range hs.length).filter fun j => decide (atRisk hs (chance h.depth h.shore) j)).length)) := by
  obtain ⟨is, info, c, -, -, -, c5⟩ := collapse_classes rnd hs
  unfold assess at hr
  cases hd : hs.mapM damage with
  | none => rw [hd] at hr; cases hr
  | some ds =>
    rw [hd, c] at hr
    simp only [Option.some.injEq] at hr
    have hlt : i < hs.length := (List.getElem?_eq_some_iff.mp hi).1
    have e : ((List.range hs.length).filter fun j =>
          decide (atRisk hs (chance h.depth h.shore) j) && decide (r.collapsed[j]? = some true)) =
        (List.range hs.length).filter fun j => decide (atRisk hs (chance h.depth h.shore) j) && decide (j ∈ is) := by
      apply List.filter_congr
      intro j hj
      congr 1
      rw [decide_eq_decide, ← hr]
      simp [List.getElem?_range (List.mem_range.mp hj)]
    rw [e, ← c5 i h hi, ← hr]
    simp [List.getElem?_range hlt]

end Verif.Damage
