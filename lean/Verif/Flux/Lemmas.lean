import Verif.Flux.Spec

set_option linter.unusedSectionVars false

namespace Verif.Flux

variable {K : Type*} [Field K] [LinearOrder K] [IsStrictOrderedRing K] {N : ℕ}

/-- Induction over the prefixes of the list a fold runs through. -/
theorem foldl_prefix {α β : Type*} (f : β → α → β) (L : List α) (P : List α → β → Prop) (b : β) (h0 : P [] b)
    (hs : ∀ p e q s, L = p ++ e :: q → P p s → P (p ++ [e]) (f s e)) : P L (L.foldl f b) := by
  suffices H : ∀ q p s, L = p ++ q → P p s → P L (q.foldl f s) from H L [] b rfl h0
  intro q
  induction q with
  | nil => intro p s h hp; rw [List.append_nil] at h; rw [h]; exact hp
  | cons e q ih =>
    intro p s h hp
    exact ih (p ++ [e]) (f s e) (by rw [h]; simp) (hs p e q s h hp)

theorem mem_edgeList (e : Edge N) : e ∈ edgeList N := by
  unfold edgeList
  simp only [List.mem_flatMap, List.mem_map, List.mem_finRange, true_and]
  exact ⟨e.1, e.2, rfl⟩

theorem pos_inj {a b : Edge N} (h : pos a = pos b) : a = b := by
  unfold pos at h
  have h1 := a.2.2
  have h2 := b.2.2
  apply Prod.ext <;> apply Fin.ext <;> omega

theorem edgeList_sorted (N : ℕ) : (edgeList N).Pairwise (fun a b => pos a < pos b) := by
  unfold edgeList
  rw [List.pairwise_flatMap]
  refine ⟨?_, ?_⟩
  · intro k _
    rw [List.pairwise_map]
    refine (List.pairwise_lt_finRange 3).imp ?_
    intro a b h
    unfold pos
    have : a.1 < b.1 := h
    simp only
    omega
  · refine (List.pairwise_lt_finRange N).imp ?_
    intro a b h x hx y hy
    simp only [List.mem_map, List.mem_finRange, true_and] at hx hy
    obtain ⟨i, rfl⟩ := hx
    obtain ⟨j, rfl⟩ := hy
    have : a.1 < b.1 := h
    have := i.2
    unfold pos
    simp only
    omega

theorem prefix_mem {p q : List (Edge N)} {e : Edge N} (h : edgeList N = p ++ e :: q) (a : Edge N) :
    a ∈ p ↔ pos a < pos e := by
  have hs := edgeList_sorted N
  rw [h, List.pairwise_append] at hs
  obtain ⟨_, h2, h3⟩ := hs
  rw [List.pairwise_cons] at h2
  constructor
  · intro ha; exact h3 a ha e (by simp)
  · intro ha
    have := mem_edgeList a
    rw [h, List.mem_append, List.mem_cons] at this
    rcases this with h' | rfl | h'
    · exact h'
    · omega
    · have := h2.1 a h'; omega

theorem takeWhile_ne {p q : List (Edge N)} {e : Edge N} (h : edgeList N = p ++ e :: q) :
    (edgeList N).takeWhile (fun a => a ≠ e) = p := by
  rw [h, List.takeWhile_append_of_pos]
  · simp
  · intro a ha
    have := (prefix_mem h a).1 ha
    simp only [ne_eq, decide_not, Bool.not_eq_eq_eq_not, Bool.not_true, decide_eq_false_iff_not]
    rintro rfl
    omega

/-! ## Balance -/


/-- Result of visiting edge `e` in state `s`. -/
def outOf (c : Consts K) (D : Dom N K) (s : FSt N K) (e : Edge N) : EdgeOut K :=
  edgeCompute c (edgeIn D e ((if D.wall e then s.wallCount + 1 else s.wallCount) - 1))

theorem edgeStep_skip (c : Consts K) (D : Dom N K) (call : ℤ) (first : Bool) (s : FSt N K) (e : Edge N)
    (h : s.mark e = call ∨ D.update e = false) :
    edgeStep c D call first s e = { s with wallCount := if D.wall e then s.wallCount + 1 else s.wallCount } := by
  unfold edgeStep
  rw [if_pos h]
  split_ifs <;> rfl

theorem edgeStep_wallCount (c : Consts K) (D : Dom N K) (call : ℤ) (first : Bool) (s : FSt N K) (e : Edge N) :
    (edgeStep c D call first s e).wallCount = if D.wall e then s.wallCount + 1 else s.wallCount := by
  by_cases h : s.mark e = call ∨ D.update e = false
  · rw [edgeStep_skip c D call first s e h]
  · unfold edgeStep
    rw [if_neg h]
    cases first <;> cases D.nbr e <;> simp <;> split_ifs <;> rfl

theorem edgeStep_work (c : Consts K) (D : Dom N K) (call : ℤ) (first : Bool) (s : FSt N K) (e : Edge N)
    (h : ¬ (s.mark e = call ∨ D.update e = false)) :
    (edgeStep c D call first s e).work = match D.nbr e with
      | none => Function.update s.work e (outOf c D s e).flux.neg
      | some m => Function.update (Function.update s.work e (outOf c D s e).flux.neg) m (outOf c D s e).flux := by
  unfold edgeStep
  rw [if_neg h]
  cases first <;> cases D.nbr e <;> simp [outOf] <;> split_ifs <;> rfl

theorem edgeStep_pg (c : Consts K) (D : Dom N K) (call : ℤ) (first : Bool) (s : FSt N K) (e : Edge N)
    (h : ¬ (s.mark e = call ∨ D.update e = false)) :
    (edgeStep c D call first s e).pg = match D.nbr e with
      | none => Function.update s.pg e (outOf c D s e).pgl
      | some m => Function.update (Function.update s.pg e (outOf c D s e).pgl) m (outOf c D s e).pgr := by
  unfold edgeStep
  rw [if_neg h]
  cases first <;> cases D.nbr e <;> simp [outOf] <;> split_ifs <;> rfl

theorem edgeStep_mark (c : Consts K) (D : Dom N K) (call : ℤ) (first : Bool) (s : FSt N K) (e : Edge N)
    (h : ¬ (s.mark e = call ∨ D.update e = false)) :
    (edgeStep c D call first s e).mark = match D.nbr e with
      | none => Function.update s.mark e call
      | some m => Function.update (Function.update s.mark e call) m call := by
  unfold edgeStep
  rw [if_neg h]
  cases first <;> cases D.nbr e <;> simp <;> split_ifs <;> rfl

theorem edgeStep_localTs_first (c : Consts K) (D : Dom N K) (hS : Symmetric D.nbr) (call : ℤ) (s : FSt N K) (e : Edge N)
    (h : ¬ (s.mark e = call ∨ D.update e = false)) :
    (edgeStep c D call true s e).localTs =
      let o := outOf c D s e
      if D.full e.1 ∧ o.speed > c.eps then
        match D.nbr e with
        | none => min s.localTs (D.radius e.1 * (1 / max o.speed c.eps))
        | some m => min (min s.localTs (D.radius e.1 * (1 / max o.speed c.eps))) (D.radius m.1 * (1 / max o.speed c.eps))
      else s.localTs := by
  unfold edgeStep
  rw [if_neg h]
  cases hn : D.nbr e with
  | none =>
    simp only [outOf, if_true]
    by_cases hf : D.full e.1
    · simp [hf]
    · simp [hf]
  | some m =>
    have hne := (hS _ _ hn).2
    simp only [outOf, if_true]
    by_cases hf : D.full e.1
    · simp [hf, Function.update_of_ne (Ne.symm hne)]
    · simp [hf]

theorem edgeStep_localTs_later (c : Consts K) (D : Dom N K) (call : ℤ) (s : FSt N K) (e : Edge N) :
    (edgeStep c D call false s e).localTs = s.localTs := by
  by_cases h : s.mark e = call ∨ D.update e = false
  · rw [edgeStep_skip c D call false s e h]
  · unfold edgeStep
    rw [if_neg h]
    cases D.nbr e <;> simp

theorem edgeStep_balanced (c : Consts K) (D : Dom N K) (hS : Symmetric D.nbr) (call : ℤ) (first : Bool) (s : FSt N K)
    (e : Edge N) (h : Balanced D.nbr s.work) : Balanced D.nbr (edgeStep c D call first s e).work := by
  by_cases h1 : s.mark e = call ∨ D.update e = false
  · rw [edgeStep_skip c D call first s e h1]; exact h
  · rw [edgeStep_work c D call first s e h1]
    intro a b hab
    generalize outOf c D s e = o
    cases hn : D.nbr e with
    | none =>
      have hae : a ≠ e := by rintro rfl; rw [hn] at hab; cases hab
      have hbe : b ≠ e := by rintro rfl; have := (hS _ _ hab).1; rw [hn] at this; cases this
      simp only [Function.update_of_ne hae, Function.update_of_ne hbe]
      exact h a b hab
    | some m =>
      obtain ⟨hm, hne⟩ := hS _ _ hn
      by_cases hae : a = e
      · subst hae
        rw [hn] at hab; cases hab
        simp [Function.update_of_ne (Ne.symm hne), Q3.neg]
      · by_cases ham : a = m
        · subst ham
          rw [hm] at hab; cases hab
          simp [Function.update_of_ne (Ne.symm hne), Q3.neg]
        · have hbe : b ≠ e := by
            rintro rfl
            have := (hS _ _ hab).1
            rw [hn] at this; cases this; exact ham rfl
          have hbm : b ≠ m := by
            rintro rfl
            have := (hS _ _ hab).1
            rw [hm] at this; cases this; exact hae rfl
          simp only [Function.update_of_ne hae, Function.update_of_ne hbe, Function.update_of_ne ham,
            Function.update_of_ne hbm]
          exact h a b hab

theorem computeFluxes_balanced (c : Consts K) (D : Dom N K) (hS : Symmetric D.nbr) (call : ℤ) (first : Bool) (dt : K)
    (s : FSt N K) (h : Balanced D.nbr s.work) : Balanced D.nbr (computeFluxes c D call first dt s).st.work := by
  exact foldl_prefix (edgeStep c D call first) (edgeList N) (fun _ s => Balanced D.nbr s.work)
    { s with maxSpeed := fun _ => 0, wallCount := 0, localTs := if D.allowIncrease then 10 ^ 100 else s.localTs } h
    (fun p e q s _ hs => edgeStep_balanced c D hS call first s e hs)

/-- Interior fluxes cancel. -/
theorem balance_sum (D : Dom N K) (hS : Symmetric D.nbr) (work : Edge N → Q3 K) (h : Balanced D.nbr work)
    (hA : ∀ k, D.area k ≠ 0) (pg : Edge N → K) :
    volumeRate D (sumUp D work pg) = ∑ e, if isOuter D e then (work e).w else 0 := by
  unfold volumeRate
  have h1 : ∀ k, (if D.full k then D.area k * (sumUp D work pg k).w else 0)
      = ∑ i, if D.full k then (work (k, i)).w else 0 := by
    intro k
    split_ifs with hf
    · unfold sumUp
      simp only
      have := hA k
      field_simp
    · simp
  simp only [h1]
  rw [← Fintype.sum_prod_type' (f := fun k i => if D.full k then (work (k, i)).w else 0)]
  have h2 : ∀ e : Edge N, (if D.full e.1 then (work (e.1, e.2)).w else 0) =
      (if isOuter D e then (work e).w else 0) + (if D.full e.1 ∧ ¬ isOuter D e then (work e).w else 0) := by
    intro e
    by_cases hf : D.full e.1
    · by_cases ho : isOuter D e <;> simp [hf, ho]
    · have : isOuter D e = false := by
        unfold isOuter; cases D.nbr e <;> simp [hf]
      simp [hf, this]
  simp only [h2]
  rw [Finset.sum_add_distrib]
  have h3 : ∑ e, (if D.full e.1 ∧ ¬ isOuter D e then (work e).w else 0) = 0 := by
    apply Finset.sum_involution (fun e _ => (D.nbr e).getD e)
    · intro e _
      cases hn : D.nbr e with
      | none => simp [isOuter, hn]
      | some m =>
        obtain ⟨hm, hne⟩ := hS _ _ hn
        have hb := h _ _ hn
        simp only [Option.getD_some]
        have e1 : (D.full e.1 ∧ ¬ isOuter D e) ↔ (D.full e.1 ∧ D.full m.1) := by
          unfold isOuter; simp only [hn]; cases D.full e.1 <;> cases D.full m.1 <;> simp
        have e2 : (D.full m.1 ∧ ¬ isOuter D m) ↔ (D.full e.1 ∧ D.full m.1) := by
          unfold isOuter; simp only [hm]; cases D.full e.1 <;> cases D.full m.1 <;> simp
        simp only [e1, e2]
        split_ifs
        · rw [hb]; ring
        · ring
    · intro e _ hne0
      cases hn : D.nbr e with
      | none =>
        exfalso; apply hne0
        simp [isOuter, hn]
      | some m => simpa using (hS _ _ hn).2
    · intro e _; exact Finset.mem_univ _
    · intro e _
      cases hn : D.nbr e with
      | none => simp [hn]
      | some m => simp [(hS _ _ hn).1]
  rw [h3, add_zero]


/-! ## What the loop computes -/

/-- The result for edge `e` computed from its own side. -/
def own (c : Consts K) (D : Dom N K) (e : Edge N) : EdgeOut K := edgeCompute c (edgeIn D e (wallRank D e - 1))

/-- The edge is visited from the other side first. -/
def Later (D : Dom N K) (e : Edge N) : Prop := ∃ m, D.nbr e = some m ∧ pos m < pos e

def finalWork (c : Consts K) (D : Dom N K) (e : Edge N) : Q3 K :=
  match D.nbr e with
  | none => (own c D e).flux.neg
  | some m => if pos m < pos e then (own c D m).flux else (own c D e).flux.neg

def finalPg (c : Consts K) (D : Dom N K) (e : Edge N) : K :=
  match D.nbr e with
  | none => (own c D e).pgl
  | some m => if pos m < pos e then (own c D m).pgr else (own c D e).pgl

/-- Edges settled once the edges in `p` have been visited. -/
def Touched (D : Dom N K) (p : List (Edge N)) (e : Edge N) : Prop :=
  D.update e = true ∧ (e ∈ p ∨ ∃ m, D.nbr e = some m ∧ m ∈ p)

theorem edgeIn_nowall (D : Dom N K) (e : Edge N) (h : D.wall e = false) (a b : ℕ) : edgeIn D e a = edgeIn D e b := by
  unfold edgeIn
  simp [h]

theorem outOf_eq (c : Consts K) (D : Dom N K) (s : FSt N K) {p q : List (Edge N)} {e : Edge N}
    (h : edgeList N = p ++ e :: q) (hw : s.wallCount = p.countP (fun a => D.wall a)) : outOf c D s e = own c D e := by
  unfold outOf own wallRank
  by_cases hwall : D.wall e
  · rw [if_pos hwall, if_pos hwall, takeWhile_ne h, hw]
  · have : D.wall e = false := by simpa using hwall
    rw [edgeIn_nowall D e this _ ((if D.wall e = true then
      ((edgeList N).takeWhile (fun a => a ≠ e)).countP (fun a => D.wall a) + 1 else 0) - 1)]

structure LoopInv (c : Consts K) (D : Dom N K) (call : ℤ) (s0 : FSt N K) (p : List (Edge N)) (s : FSt N K) : Prop where
  count : s.wallCount = p.countP (fun a => D.wall a)
  touched : ∀ e, Touched D p e → s.work e = finalWork c D e ∧ s.pg e = finalPg c D e ∧ s.mark e = call
  untouched : ∀ e, ¬ Touched D p e → s.work e = s0.work e ∧ s.pg e = s0.pg e ∧ s.mark e = s0.mark e

theorem loopInv_step (c : Consts K) (D : Dom N K) (hS : Symmetric D.nbr)
    (hU : ∀ e m, D.nbr e = some m → D.update m = D.update e) (call : ℤ) (first : Bool)
    (s0 : FSt N K) (hM : ∀ e, s0.mark e ≠ call) (p q : List (Edge N)) (e : Edge N) (s : FSt N K)
    (hL : edgeList N = p ++ e :: q) (hi : LoopInv c D call s0 p s) :
    LoopInv c D call s0 (p ++ [e]) (edgeStep c D call first s e) := by
  have hcount : (edgeStep c D call first s e).wallCount = (p ++ [e]).countP (fun a => D.wall a) := by
    rw [edgeStep_wallCount, hi.count, List.countP_append]
    by_cases hw : D.wall e <;> simp [hw]
  have hep : e ∉ p := by rw [prefix_mem hL]; omega
  by_cases hskip : s.mark e = call ∨ D.update e = false
  · -- nothing new is settled
    have hT : ∀ a, Touched D (p ++ [e]) a ↔ Touched D p a := by
      intro a
      constructor
      · rintro ⟨hu, hh⟩
        refine ⟨hu, ?_⟩
        rcases hskip with hm | hm
        · have hte : Touched D p e := by
            by_contra hne
            exact hM e ((hi.untouched e hne).2.2 ▸ hm)
          obtain ⟨_, h' | ⟨m, hn, hmp⟩⟩ := hte
          · exact absurd h' hep
          · rcases hh with h' | ⟨b, hb, hbp⟩
            · rcases List.mem_append.1 h' with h' | h'
              · exact Or.inl h'
              · rw [List.mem_singleton] at h'; subst h'; exact Or.inr ⟨m, hn, hmp⟩
            · rcases List.mem_append.1 hbp with h' | h'
              · exact Or.inr ⟨b, hb, h'⟩
              · rw [List.mem_singleton] at h'; subst h'
                have := (hS _ _ hb).1
                rw [hn] at this; cases this
                exact Or.inl hmp
        · rcases hh with h' | ⟨b, hb, hbp⟩
          · rcases List.mem_append.1 h' with h' | h'
            · exact Or.inl h'
            · rw [List.mem_singleton] at h'; subst h'; rw [hm] at hu; cases hu
          · rcases List.mem_append.1 hbp with h' | h'
            · exact Or.inr ⟨b, hb, h'⟩
            · rw [List.mem_singleton] at h'; subst h'
              have := hU _ _ hb
              rw [hm, hu] at this; cases this
      · rintro ⟨hu, h' | ⟨m, hn, hmp⟩⟩
        · exact ⟨hu, Or.inl (List.mem_append_left _ h')⟩
        · exact ⟨hu, Or.inr ⟨m, hn, List.mem_append_left _ hmp⟩⟩
    refine ⟨hcount, ?_, ?_⟩
    · intro a ha
      rw [edgeStep_skip c D call first s e hskip]
      exact hi.touched a ((hT a).1 ha)
    · intro a ha
      rw [edgeStep_skip c D call first s e hskip]
      exact hi.untouched a (fun h => ha ((hT a).2 h))
  · have hu : D.update e = true := by
      by_contra h'; exact hskip (Or.inr (by simpa using h'))
    have hnt : ¬ Touched D p e := by
      intro ht; exact hskip (Or.inl (hi.touched e ht).2.2)
    have hw := edgeStep_work c D call first s e hskip
    have hp := edgeStep_pg c D call first s e hskip
    have hk := edgeStep_mark c D call first s e hskip
    have ho : outOf c D s e = own c D e := outOf_eq c D s hL hi.count
    rw [ho] at hw hp
    cases hn : D.nbr e with
    | none =>
      rw [hn] at hw hp hk
      have hT : ∀ a, a ≠ e → (Touched D (p ++ [e]) a ↔ Touched D p a) := by
        intro a hae
        constructor
        · rintro ⟨hu', h' | ⟨b, hb, hbp⟩⟩
          · rcases List.mem_append.1 h' with h' | h'
            · exact ⟨hu', Or.inl h'⟩
            · rw [List.mem_singleton] at h'; exact absurd h' hae
          · rcases List.mem_append.1 hbp with h' | h'
            · exact ⟨hu', Or.inr ⟨b, hb, h'⟩⟩
            · rw [List.mem_singleton] at h'; subst h'
              have := (hS _ _ hb).1
              rw [hn] at this; cases this
        · rintro ⟨hu, h' | ⟨m, hn, hmp⟩⟩
          · exact ⟨hu, Or.inl (List.mem_append_left _ h')⟩
          · exact ⟨hu, Or.inr ⟨m, hn, List.mem_append_left _ hmp⟩⟩
      refine ⟨hcount, ?_, ?_⟩
      · intro a ha
        by_cases hae : a = e
        · subst hae
          rw [hw, hp, hk]
          simp [finalWork, finalPg, hn]
        · rw [hw, hp, hk]
          simp only [Function.update_of_ne hae]
          exact hi.touched a ((hT a hae).1 ha)
      · intro a ha
        have hae : a ≠ e := by rintro rfl; exact ha ⟨hu, Or.inl (by simp)⟩
        rw [hw, hp, hk]
        simp only [Function.update_of_ne hae]
        exact hi.untouched a (fun h => ha ((hT a hae).2 h))
    | some m =>
      rw [hn] at hw hp hk
      obtain ⟨hm, hne⟩ := hS _ _ hn
      have hmp : m ∉ p := fun h => hnt ⟨hu, Or.inr ⟨m, hn, h⟩⟩
      have hlt : pos e < pos m := by
        rw [prefix_mem hL] at hmp
        have : pos m ≠ pos e := fun h => hne (pos_inj h)
        omega
      have hT : ∀ a, a ≠ e → a ≠ m → (Touched D (p ++ [e]) a ↔ Touched D p a) := by
        intro a hae ham
        constructor
        · rintro ⟨hu', h' | ⟨b, hb, hbp⟩⟩
          · rcases List.mem_append.1 h' with h' | h'
            · exact ⟨hu', Or.inl h'⟩
            · rw [List.mem_singleton] at h'; exact absurd h' hae
          · rcases List.mem_append.1 hbp with h' | h'
            · exact ⟨hu', Or.inr ⟨b, hb, h'⟩⟩
            · rw [List.mem_singleton] at h'; subst h'
              have := (hS _ _ hb).1
              rw [hn] at this; cases this
              exact absurd rfl ham
        · rintro ⟨hu, h' | ⟨m, hn, hmp⟩⟩
          · exact ⟨hu, Or.inl (List.mem_append_left _ h')⟩
          · exact ⟨hu, Or.inr ⟨m, hn, List.mem_append_left _ hmp⟩⟩
      refine ⟨hcount, ?_, ?_⟩
      · intro a ha
        rw [hw, hp, hk]
        by_cases ham : a = m
        · subst ham
          simp [finalWork, finalPg, hm, hlt]
        · by_cases hae : a = e
          · subst hae
            have hnl : ¬ pos m < pos a := by omega
            simp [finalWork, finalPg, hn, Function.update_of_ne ham, hnl]
          · simp only [Function.update_of_ne hae, Function.update_of_ne ham]
            exact hi.touched a ((hT a hae ham).1 ha)
      · intro a ha
        have hae : a ≠ e := by rintro rfl; exact ha ⟨hu, Or.inl (by simp)⟩
        have ham : a ≠ m := by
          rintro rfl
          exact ha ⟨by rw [hU _ _ hn]; exact hu, Or.inr ⟨e, hm, by simp⟩⟩
        rw [hw, hp, hk]
        simp only [Function.update_of_ne hae, Function.update_of_ne ham]
        exact hi.untouched a (fun h => ha ((hT a hae ham).2 h))

theorem touched_all (D : Dom N K) (e : Edge N) : Touched D (edgeList N) e ↔ D.update e = true :=
  ⟨fun h => h.1, fun h => ⟨h, Or.inl (mem_edgeList e)⟩⟩

theorem loop_spec (c : Consts K) (D : Dom N K) (hS : Symmetric D.nbr)
    (hU : ∀ e m, D.nbr e = some m → D.update m = D.update e) (call : ℤ) (first : Bool) (dt : K)
    (s0 : FSt N K) (hM : ∀ e, s0.mark e ≠ call) (e : Edge N) :
    (D.update e = true → (computeFluxes c D call first dt s0).st.work e = finalWork c D e ∧
      (computeFluxes c D call first dt s0).st.pg e = finalPg c D e ∧
      (computeFluxes c D call first dt s0).st.mark e = call) ∧
    (D.update e = false → (computeFluxes c D call first dt s0).st.work e = s0.work e ∧
      (computeFluxes c D call first dt s0).st.pg e = s0.pg e ∧
      (computeFluxes c D call first dt s0).st.mark e = s0.mark e) := by
  have h := foldl_prefix (edgeStep c D call first) (edgeList N) (LoopInv c D call s0)
    { s0 with maxSpeed := fun _ => 0, wallCount := 0, localTs := if D.allowIncrease then 10 ^ 100 else s0.localTs }
    ⟨by simp, by rintro e ⟨_, h | ⟨m, _, h⟩⟩ <;> simp at h, fun e _ => ⟨rfl, rfl, rfl⟩⟩
    (fun p e q s hL hi => loopInv_step c D hS hU call first s0 hM p q e s hL hi)
  constructor
  · intro hu
    exact h.touched e ((touched_all D e).2 hu)
  · intro hu
    exact h.untouched e (fun h' => by rw [touched_all, hu] at h'; cases h')

/-! ## Timestep -/

/-- The steps the loop must respect: `radius / speed` for both triangles at every settled edge that is visited first
from a triangle owned by this process. -/
def Bound (c : Consts K) (D : Dom N K) (p : List (Edge N)) (t : K) : Prop :=
  ∃ e, e ∈ p ∧ D.update e = true ∧ ¬ Later D e ∧ D.full e.1 = true ∧ (own c D e).speed > c.eps ∧
    (t = D.radius e.1 * (1 / max (own c D e).speed c.eps) ∨
      ∃ m, D.nbr e = some m ∧ t = D.radius m.1 * (1 / max (own c D e).speed c.eps))

structure TsInv (c : Consts K) (D : Dom N K) (t0 : K) (p : List (Edge N)) (s : FSt N K) : Prop where
  init : s.localTs ≤ t0
  all : ∀ t, Bound c D p t → s.localTs ≤ t
  attained : s.localTs = t0 ∨ Bound c D p s.localTs

theorem tsInv_step (c : Consts K) (D : Dom N K) (hS : Symmetric D.nbr)
    (hU : ∀ e m, D.nbr e = some m → D.update m = D.update e) (call : ℤ)
    (s0 : FSt N K) (hM : ∀ e, s0.mark e ≠ call) (t0 : K) (p q : List (Edge N)) (e : Edge N) (s : FSt N K)
    (hL : edgeList N = p ++ e :: q) (hi : LoopInv c D call s0 p s) (ht : TsInv c D t0 p s) :
    TsInv c D t0 (p ++ [e]) (edgeStep c D call true s e) := by
  have mono : ∀ t, Bound c D p t → Bound c D (p ++ [e]) t := by
    rintro t ⟨a, ha, h⟩
    exact ⟨a, List.mem_append_left _ ha, h⟩
  have hep : e ∉ p := by rw [prefix_mem hL]; omega
  by_cases hskip : s.mark e = call ∨ D.update e = false
  · have hrev : ∀ t, Bound c D (p ++ [e]) t → Bound c D p t := by
      rintro t ⟨a, ha, hu, hl, h⟩
      rcases List.mem_append.1 ha with ha | ha
      · exact ⟨a, ha, hu, hl, h⟩
      · rw [List.mem_singleton] at ha; subst ha
        rcases hskip with hm | hm
        · have hte : Touched D p a := by
            by_contra hne
            exact hM a ((hi.untouched a hne).2.2 ▸ hm)
          obtain ⟨_, h' | ⟨m, hn, hmp⟩⟩ := hte
          · exact absurd h' hep
          · exact absurd ⟨m, hn, (prefix_mem hL m).1 hmp⟩ hl
        · rw [hm] at hu; cases hu
    rw [edgeStep_skip c D call true s e hskip]
    refine ⟨ht.init, fun t h => ht.all t (hrev t h), ?_⟩
    rcases ht.attained with h | h
    · exact Or.inl h
    · exact Or.inr (mono _ h)
  · have hu : D.update e = true := by
      by_contra h'; exact hskip (Or.inr (by simpa using h'))
    have hnt : ¬ Touched D p e := by
      intro h; exact hskip (Or.inl (hi.touched e h).2.2)
    have hnl : ¬ Later D e := by
      rintro ⟨m, hn, hlt⟩
      exact hnt ⟨hu, Or.inr ⟨m, hn, (prefix_mem hL m).2 hlt⟩⟩
    have ho : outOf c D s e = own c D e := outOf_eq c D s hL hi.count
    have hts := edgeStep_localTs_first c D hS call s e hskip
    rw [ho] at hts
    simp only at hts
    by_cases hact : D.full e.1 = true ∧ (own c D e).speed > c.eps
    · rw [if_pos hact] at hts
      have hb1 : Bound c D (p ++ [e]) (D.radius e.1 * (1 / max (own c D e).speed c.eps)) :=
        ⟨e, by simp, hu, hnl, hact.1, hact.2, Or.inl rfl⟩
      cases hn : D.nbr e with
      | none =>
        rw [hn] at hts
        simp only at hts
        refine ⟨by rw [hts]; exact le_trans (min_le_left _ _) ht.init, ?_, ?_⟩
        · rintro t ⟨a, ha, hr⟩
          rw [hts]
          rcases List.mem_append.1 ha with ha | ha
          · exact le_trans (min_le_left _ _) (ht.all t ⟨a, ha, hr⟩)
          · rw [List.mem_singleton] at ha; subst ha
            obtain ⟨_, _, _, _, rfl | ⟨m, hm, _⟩⟩ := hr
            · exact min_le_right _ _
            · rw [hn] at hm; cases hm
        · rw [hts]
          rcases min_choice s.localTs (D.radius e.1 * (1 / max (own c D e).speed c.eps)) with h | h
          · rw [h]
            exact ht.attained.imp id (mono _)
          · rw [h]; exact Or.inr hb1
      | some m =>
        rw [hn] at hts
        simp only at hts
        have hb2 : Bound c D (p ++ [e]) (D.radius m.1 * (1 / max (own c D e).speed c.eps)) :=
          ⟨e, by simp, hu, hnl, hact.1, hact.2, Or.inr ⟨m, hn, rfl⟩⟩
        refine ⟨by rw [hts]; exact le_trans (min_le_left _ _) (le_trans (min_le_left _ _) ht.init), ?_, ?_⟩
        · rintro t ⟨a, ha, hr⟩
          rw [hts]
          rcases List.mem_append.1 ha with ha | ha
          · exact le_trans (min_le_left _ _) (le_trans (min_le_left _ _) (ht.all t ⟨a, ha, hr⟩))
          · rw [List.mem_singleton] at ha; subst ha
            obtain ⟨_, _, _, _, rfl | ⟨m', hm, rfl⟩⟩ := hr
            · exact le_trans (min_le_left _ _) (min_le_right _ _)
            · rw [hn] at hm; cases hm; exact min_le_right _ _
        · rw [hts]
          rcases min_choice (min s.localTs (D.radius e.1 * (1 / max (own c D e).speed c.eps)))
            (D.radius m.1 * (1 / max (own c D e).speed c.eps)) with h | h
          · rw [h]
            rcases min_choice s.localTs (D.radius e.1 * (1 / max (own c D e).speed c.eps)) with h | h
            · rw [h]
              exact ht.attained.imp id (mono _)
            · rw [h]; exact Or.inr hb1
          · rw [h]; exact Or.inr hb2
    · rw [if_neg hact] at hts
      refine ⟨by rw [hts]; exact ht.init, ?_, by rw [hts]; exact ht.attained.imp id (mono _)⟩
      rintro t ⟨a, ha, hr⟩
      rw [hts]
      rcases List.mem_append.1 ha with ha | ha
      · exact ht.all t ⟨a, ha, hr⟩
      · rw [List.mem_singleton] at ha; subst ha
        exact absurd ⟨hr.2.2.1, hr.2.2.2.1⟩ hact

theorem ts_spec (c : Consts K) (D : Dom N K) (hS : Symmetric D.nbr)
    (hU : ∀ e m, D.nbr e = some m → D.update m = D.update e) (call : ℤ) (dt : K)
    (s0 : FSt N K) (hM : ∀ e, s0.mark e ≠ call) :
    TsInv c D (if D.allowIncrease then 10 ^ 100 else s0.localTs) (edgeList N) (computeFluxes c D call true dt s0).st := by
  have h := foldl_prefix (edgeStep c D call true) (edgeList N)
    (fun p s => LoopInv c D call s0 p s ∧ TsInv c D (if D.allowIncrease then 10 ^ 100 else s0.localTs) p s)
    { s0 with maxSpeed := fun _ => 0, wallCount := 0, localTs := if D.allowIncrease then 10 ^ 100 else s0.localTs }
    ⟨⟨by simp, by rintro e ⟨_, h | ⟨m, _, h⟩⟩ <;> simp at h, fun e _ => ⟨rfl, rfl, rfl⟩⟩,
      ⟨le_refl _, by rintro t ⟨a, ha, _⟩; simp at ha, Or.inl rfl⟩⟩
    (fun p e q s hL hi => ⟨loopInv_step c D hS hU call true s0 hM p q e s hL hi.1,
      tsInv_step c D hS hU call s0 hM _ p q e s hL hi.1 hi.2⟩)
  exact h.2

end Verif.Flux
