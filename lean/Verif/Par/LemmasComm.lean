import Verif.Par.LemmasPart

/-!
# Lemmas: the communication pattern
-/

namespace Verif.Par

open Verif.Mesh (Tri BDict MeshData MeshErr buildMesh DirEdge Conforming Across)

theorem takeWhile_length {α : Type*} (P : α → Bool) (l : List α) : ∀ (p : ℕ), (∀ q, q < p → ∃ x, l[q]? = some x ∧ P x = true) →
    (∃ x, l[p]? = some x ∧ P x = false) → (l.takeWhile P).length = p := by
  induction l with
  | nil => rintro p _ ⟨x, hx, _⟩; simp at hx
  | cons a l ih =>
    intro p h1 h2
    cases p with
    | zero =>
      obtain ⟨x, hx, hP⟩ := h2
      simp only [List.getElem?_cons_zero, Option.some.injEq] at hx
      subst hx
      simp [hP]
    | succ p =>
      obtain ⟨x, hx, hP⟩ := h1 0 (by omega)
      simp only [List.getElem?_cons_zero, Option.some.injEq] at hx
      subst hx
      rw [List.takeWhile_cons_of_pos hP, List.length_cons]
      congr 1
      refine ih p (fun q hq => ?_) ?_
      · have := h1 (q + 1) (by omega)
        simpa using this
      · simpa using h2

theorem sortCols_eq (l : List (ℕ × ℕ)) (h1 : (l.map Prod.fst).Pairwise (· ≤ ·)) (h2 : (l.map Prod.snd).Pairwise (· ≤ ·)) :
    sortCols l = l := by
  unfold sortCols
  rw [h1.insertionSort_eq, h2.insertionSort_eq]
  induction l with
  | nil => rfl
  | cons a l ih =>
    simp only [List.map_cons, List.zip_cons_cons]
    rw [ih]
    · exact (List.pairwise_cons.mp h1).2
    · exact (List.pairwise_cons.mp h2).2

theorem filter_map_pair (f : ℕ → ℕ) (c : ℕ) (l : List ℕ) :
    ((l.map (fun g => (g, f g))).filter (fun x => decide (x.2 = c))).map Prod.fst = l.filter (fun g => decide (f g = c)) := by
  induction l with
  | nil => rfl
  | cons a l ih =>
    by_cases h : f a = c
    · simp [h] at ih ⊢; exact ih
    · simp [h] at ih ⊢; exact ih

/-- One processor's pass of the second loop of `full_commun_pattern`. -/
theorem fold_gc (p : ℕ) (l : List (ℕ × ℕ)) : ∀ (f : ℕ × ℕ → List ℕ), l.Nodup → ∀ q g,
    l.foldl (fun f g => Function.update f (g.2, g.1) (f (g.2, g.1) ++ [p])) f (q, g) =
      if (g, q) ∈ l then f (q, g) ++ [p] else f (q, g) := by
  induction l with
  | nil => intro f _ q g; simp
  | cons a l ih =>
    intro f hn q g
    obtain ⟨h1, h2⟩ := List.nodup_cons.mp hn
    rw [List.foldl_cons, ih _ h2]
    by_cases h : (q, g) = (a.2, a.1)
    · have ha : a = (g, q) := by
        simp only [Prod.mk.injEq] at h
        exact Prod.ext h.2.symm h.1.symm
      subst ha
      rw [if_neg h1, if_pos List.mem_cons_self, Function.update_self]
    · have ha : (g, q) ≠ a := by
        rintro rfl
        exact h rfl
      rw [Function.update_of_ne h]
      simp [ha]

theorem fullCommun_eq (gc : ℕ → List (ℕ × ℕ)) (hn : ∀ p, (gc p).Nodup) (N q g : ℕ) :
    fullCommun N gc (q, g) = (List.range N).filter (fun p => decide ((g, q) ∈ gc p)) := by
  unfold fullCommun
  induction N with
  | zero => rfl
  | succ N ih =>
    rw [List.range_succ, List.foldl_append, List.filter_append, List.foldl_cons, List.foldl_nil, fold_gc N _ _ (hn N), ih]
    by_cases h : (g, q) ∈ gc N <;> simp [h]

section

variable {N : ℕ} {epart : List ℕ} {tris : List Tri} {user : BDict} {m : MeshData} {d : Division} {m' : MeshData}

/-- Processor owning a triangle of the new numbering. -/
def owner (epart : List ℕ) (g : ℕ) : ℕ := epart.getD (old epart g) 0

theorem owner_lt_length (epart : List ℕ) (g : ℕ) (hg : g < epart.length) : owner epart g < (bincount epart).length := by
  apply bincount_length
  unfold owner
  rw [List.getD_eq_getElem _ _ (old_lt epart g hg)]
  exact List.getElem_mem _

theorem owner_mono (epart : List ℕ) (g h : ℕ) (hh : h < epart.length) (hgh : g ≤ h) : owner epart g ≤ owner epart h := by
  have h1 := (old_range epart g _ (by omega)).mp rfl
  have h2 := (old_range epart h _ hh).mp rfl
  by_contra hc
  have := procSum_mono (bincount epart) (show owner epart h + 1 ≤ owner epart g by omega)
  unfold owner at this
  omega

theorem Setup.searchsorted (s : Setup N epart tris user m d m') (g : ℕ) (hg : g < epart.length) :
    searchsorted ((List.range d.tpp.length).map (fun p => (procSum d.tpp (p + 1) : ℤ) - 1)) g = owner epart g := by
  have hlt := owner_lt_length epart g hg
  have hr := (old_range epart g _ hg).mp rfl
  rw [show epart.getD (old epart g) 0 = owner epart g from rfl] at hr
  rw [(divide_ok s.hd).1]
  unfold Par.searchsorted
  apply takeWhile_length
  · intro q hq
    have hql : q < (bincount epart).length := by omega
    refine ⟨(procSum (bincount epart) (q + 1) : ℤ) - 1, ?_, ?_⟩
    · rw [List.getElem?_map, List.getElem?_range hql]; rfl
    · have := procSum_mono (bincount epart) (show q + 1 ≤ owner epart g by omega)
      simp only [decide_eq_true_eq]
      omega
  · refine ⟨(procSum (bincount epart) (owner epart g + 1) : ℤ) - 1, ?_, ?_⟩
    · rw [List.getElem?_map, List.getElem?_range hlt]; rfl
    · simp only [decide_eq_false_iff_not]
      omega

theorem Setup.ghost_lt (s : Setup N epart tris user m d m') (width p x : ℕ) (hx : x ∈ ghostsOf d m' width p) : x < epart.length :=
  ((s.ghosts width p x).mp hx).1

theorem Setup.ghostCommun (s : Setup N epart tris user m d m') (width p : ℕ) :
    ghostCommun d.tpp (ghostsOf d m' width p) = (ghostsOf d m' width p).map (fun g => (g, owner epart g)) := by
  unfold Par.ghostCommun
  apply List.map_congr_left
  intro g hg
  rw [s.searchsorted g (s.ghost_lt width p g hg)]

/-- Ghosts of `p` owned by `q`. -/
def shared (epart : List ℕ) (d : Division) (m : MeshData) (width p q : ℕ) : List ℕ :=
  (ghostsOf d m width p).filter (fun g => decide (owner epart g = q))

theorem shared_sorted (epart : List ℕ) (d : Division) (m : MeshData) (width p q : ℕ) :
    (shared epart d m width p q).Pairwise (· < ·) := (ghostIds_sorted _ _ _ _).filter _

theorem Setup.ghostRecv (s : Setup N epart tris user m d m') (width p q : ℕ) :
    (localOf d m' (ghostsOf d m' width) p).ghostRecv q = (shared epart d m' width p q).map (fun g =>
      (at' (triMap (procSum d.tpp p) (procSum d.tpp (p + 1)) (ghostsOf d m' width p)) g, g)) := by
  show Par.ghostRecv _ _ q = _
  unfold Par.ghostRecv
  rw [s.ghostCommun, sortCols_eq, filter_map_pair (owner epart) q]
  · rfl
  · rw [List.map_map, List.pairwise_map]
    exact (ghostIds_sorted _ _ _ _).imp (fun h => h.le)
  · rw [List.map_map, List.pairwise_map]
    refine (ghostIds_sorted _ _ _ _).imp_of_mem ?_
    intro a b _ hb hab
    exact owner_mono epart a b (s.ghost_lt width p b hb) hab.le

theorem Setup.fullSend (s : Setup N epart tris user m d m') (width p q : ℕ) (hp : p < N) :
    (localOf d m' (ghostsOf d m' width) q).fullSend p = (shared epart d m' width p q).map (fun g =>
      (at' (triMap (procSum d.tpp q) (procSum d.tpp (q + 1)) (ghostsOf d m' width q)) g, g)) := by
  have hN : d.tpp.length = N := (divide_ok s.hd).2.2.2.2.1
  have hcomm : ∀ i, i ∈ fullIds (procSum d.tpp q) (procSum d.tpp (q + 1)) →
      fullCommun d.tpp.length (fun r => Par.ghostCommun d.tpp (ghostsOf d m' width r)) (q, i) =
        (List.range N).filter (fun r => decide (i ∈ ghostsOf d m' width r)) := by
    intro i hi
    rw [fullCommun_eq, hN]
    · apply List.filter_congr
      intro r _
      have : (i, q) ∈ Par.ghostCommun d.tpp (ghostsOf d m' width r) ↔ i ∈ ghostsOf d m' width r := by
        rw [s.ghostCommun, List.mem_map]
        constructor
        · rintro ⟨g, hg, he⟩
          simp only [Prod.mk.injEq] at he
          rw [← he.1]
          exact hg
        · intro h
          refine ⟨i, h, ?_⟩
          rw [show owner epart i = q from ((s.own_iff q i).mp hi).2]
      simp [this]
    · intro r
      show (Par.ghostCommun d.tpp (ghostsOf d m' width r)).Nodup
      rw [s.ghostCommun]
      refine List.Nodup.map_on ?_ ((ghostIds_sorted _ _ _ _).imp (fun h => h.ne))
      intro x _ y _ h
      exact congrArg Prod.fst h
  show Par.fullSend _ _ p = _
  unfold Par.fullSend
  have htmp : ((fullIds (procSum d.tpp q) (procSum d.tpp (q + 1))).map (fun i =>
      (i, fullCommun d.tpp.length (fun r => Par.ghostCommun d.tpp (ghostsOf d m' width r)) (q, i)))).flatMap
        (fun x => (x.2.filter (fun n => decide (n = p))).map (fun _ => (x.1,
          at' (triMap (procSum d.tpp q) (procSum d.tpp (q + 1)) (ghostsOf d m' width q)) x.1))) =
      (shared epart d m' width p q).map (fun g =>
        (g, at' (triMap (procSum d.tpp q) (procSum d.tpp (q + 1)) (ghostsOf d m' width q)) g)) := by
    have hsh : shared epart d m' width p q = (fullIds (procSum d.tpp q) (procSum d.tpp (q + 1))).filter
        (fun i => decide (i ∈ ghostsOf d m' width p)) := by
      refine sorted_ext (shared_sorted epart d m' width p q) ((fullIds_sorted _ _).filter _) ?_
      intro x
      unfold shared
      simp only [List.mem_filter, decide_eq_true_eq, s.own_iff]
      constructor
      · rintro ⟨h1, h2⟩
        exact ⟨⟨s.ghost_lt width p x h1, h2⟩, h1⟩
      · rintro ⟨⟨_, h2⟩, h1⟩
        exact ⟨h1, h2⟩
    rw [hsh, List.flatMap_map]
    have hlist : ∀ l : List ℕ, (∀ i ∈ l, i ∈ fullIds (procSum d.tpp q) (procSum d.tpp (q + 1))) →
        l.flatMap (fun a => ((fullCommun d.tpp.length (fun r => Par.ghostCommun d.tpp (ghostsOf d m' width r)) (q, a)).filter
            (fun n => decide (n = p))).map (fun _ => (a,
              at' (triMap (procSum d.tpp q) (procSum d.tpp (q + 1)) (ghostsOf d m' width q)) a))) =
          (l.filter (fun i => decide (i ∈ ghostsOf d m' width p))).map (fun g =>
            (g, at' (triMap (procSum d.tpp q) (procSum d.tpp (q + 1)) (ghostsOf d m' width q)) g)) := by
      intro l
      induction l with
      | nil => intro _; rfl
      | cons a l ih =>
        intro hl
        rw [List.flatMap_cons, ih (fun i hi => hl i (List.mem_cons_of_mem _ hi)), hcomm a (hl a List.mem_cons_self)]
        have hone : ((List.range N).filter (fun r => decide (a ∈ ghostsOf d m' width r))).filter (fun n => decide (n = p)) =
            if a ∈ ghostsOf d m' width p then [p] else [] := by
          rw [List.filter_filter]
          by_cases ha : a ∈ ghostsOf d m' width p
          · rw [if_pos ha]
            have : (List.range N).filter (fun r => decide (r = p) && decide (a ∈ ghostsOf d m' width r)) =
                (List.range N).filter (fun r => decide (r = p)) := by
              apply List.filter_congr
              intro r _
              by_cases hr : r = p
              · subst hr; simp [ha]
              · simp [hr]
            rw [this]
            refine sorted_ext (List.pairwise_lt_range.filter _) (by simp) ?_
            intro x
            simp only [List.mem_filter, List.mem_range, decide_eq_true_eq, List.mem_singleton]
            constructor
            · exact fun h => h.2
            · rintro rfl; exact ⟨hp, rfl⟩
          · rw [if_neg ha, List.filter_eq_nil_iff]
            intro r _
            by_cases hr : r = p
            · subst hr; simp [ha]
            · simp [hr]
        rw [hone]
        by_cases ha : a ∈ ghostsOf d m' width p <;> simp [ha]
    exact hlist _ (fun i hi => hi)
  rw [htmp]
  simp only
  rw [sortCols_eq]
  · rw [List.map_map]
    rfl
  · rw [List.map_map, List.pairwise_map]
    exact (shared_sorted epart d m' width p q).imp (fun h => h.le)
  · rw [List.map_map, List.pairwise_map]
    refine (shared_sorted epart d m' width p q).imp_of_mem ?_
    intro a b ha hb hab
    have hown : ∀ x ∈ shared epart d m' width p q, (ids d m' width q)[x - procSum d.tpp q]? = some x := by
      intro x hx
      unfold shared at hx
      simp only [List.mem_filter, decide_eq_true_eq] at hx
      have hr := (mem_fullIds _ _ _).mp ((s.own_iff q x).mpr ⟨s.ghost_lt width p x hx.1, hx.2⟩)
      unfold ids
      rw [List.getElem?_append_left (by rw [fullIds_length]; omega)]
      unfold fullIds
      rw [List.getElem?_range' (by omega)]
      congr 1
      omega
    have e1 := (s.numbers width q).at (hown a ha)
    have e2 := (s.numbers width q).at (hown b hb)
    simp only [Function.comp]
    rw [e1, e2]
    omega

theorem foldl_put {α : Type*} (l : List ℕ) (f : ℕ → List ℕ) (g : ℕ → List α) : ∀ u : ℕ → α,
    l.foldl (fun v q => put v (f q) (g q)) u =
      (l.flatMap (fun q => (f q).zip (g q))).foldl (fun u x => Function.update u x.1 x.2) u := by
  induction l with
  | nil => intro u; rfl
  | cons a l ih =>
    intro u
    rw [List.foldl_cons, List.flatMap_cons, List.foldl_append, ih]
    rfl

theorem zip_map_same {α β γ : Type*} (l : List α) (f : α → β) (g : α → γ) : (l.map f).zip (l.map g) = l.map (fun x => (f x, g x)) := by
  induction l with
  | nil => rfl
  | cons a l ih => simp [ih]

/-- The exchange, entry by entry. -/
theorem Setup.exchange {α : Type*} (s : Setup N epart tris user m d m') (width p : ℕ) (hp : p < N) (u : ℕ → ℕ → α) (k g : ℕ)
    (hk : (ids d m' width p)[k]? = some g) :
    exchange ((List.range N).map (localOf d m' (ghostsOf d m' width))) u p k =
      if owner epart g = p then u p k else
        u (owner epart g) (at' (triMap (procSum d.tpp (owner epart g)) (procSum d.tpp (owner epart g + 1))
          (ghostsOf d m' width (owner epart g))) g) := by
  have hN : d.tpp.length = N := (divide_ok s.hd).2.2.2.2.1
  have hpart : ∀ q, q < N → ((List.range N).map (localOf d m' (ghostsOf d m' width)))[q]? =
      some (localOf d m' (ghostsOf d m' width) q) := by
    intro q hq
    rw [List.getElem?_map, List.getElem?_range hq]
    rfl
  have hex : Par.exchange ((List.range N).map (localOf d m' (ghostsOf d m' width))) u p =
      ((List.range N).flatMap (fun q => (shared epart d m' width p q).map (fun g =>
        (at' (triMap (procSum d.tpp p) (procSum d.tpp (p + 1)) (ghostsOf d m' width p)) g,
          u q (at' (triMap (procSum d.tpp q) (procSum d.tpp (q + 1)) (ghostsOf d m' width q)) g))))).foldl
        (fun u x => Function.update u x.1 x.2) (u p) := by
    unfold Par.exchange
    simp only [hpart p hp]
    rw [foldl_put, List.length_map, List.length_range]
    congr 1
    rw [List.flatMap_eq_foldl, List.flatMap_eq_foldl]
    apply List.foldl_ext
    intro acc q hq
    rw [List.mem_range] at hq
    simp only [hpart q hq]
    rw [s.ghostRecv, s.fullSend width p q hp, List.map_map, List.map_map, zip_map_same]
    rfl
  rw [hex]
  have hnum := s.numbers width p
  have hinj : ∀ g', g' ∈ ghostsOf d m' width p →
      at' (triMap (procSum d.tpp p) (procSum d.tpp (p + 1)) (ghostsOf d m' width p)) g' = k → g' = g := by
    intro g' hg' he
    obtain ⟨k', hk'⟩ := List.mem_iff_getElem?.mp (show g' ∈ ids d m' width p from List.mem_append_right _ hg')
    rw [hnum.at hk'] at he
    subst he
    rw [hk'] at hk
    exact Option.some.inj hk
  by_cases ho : owner epart g = p
  · rw [if_pos ho]
    refine fold_update_prop (fun w => w = u p k) k _ _ ?_ (Or.inl rfl)
    intro x hx he
    exfalso
    simp only [List.mem_flatMap, List.mem_map] at hx
    obtain ⟨q, _, g', hg', rfl⟩ := hx
    unfold shared at hg'
    simp only [List.mem_filter, decide_eq_true_eq] at hg'
    have := hinj g' hg'.1 he
    subst this
    exact ((s.ghosts width p g').mp hg'.1).2.1 ho
  · rw [if_neg ho]
    have hgl := s.ids_lt width p g (List.mem_of_getElem? hk)
    have hgh : g ∈ ghostsOf d m' width p := by
      rcases List.mem_append.mp (List.mem_of_getElem? hk) with h | h
      · exact absurd ((s.own_iff p g).mp h).2 ho
      · exact h
    refine fold_update_prop (fun w => w = u (owner epart g) (at' (triMap (procSum d.tpp (owner epart g))
      (procSum d.tpp (owner epart g + 1)) (ghostsOf d m' width (owner epart g))) g)) k _ _ ?_ (Or.inr ?_)
    · intro x hx he
      simp only [List.mem_flatMap, List.mem_map] at hx
      obtain ⟨q, _, g', hg', rfl⟩ := hx
      unfold shared at hg'
      simp only [List.mem_filter, decide_eq_true_eq] at hg'
      have := hinj g' hg'.1 he
      subst this
      rw [hg'.2]
    · have hlt := owner_lt_length epart g hgl
      rw [← (divide_ok s.hd).1, hN] at hlt
      refine ⟨(k, u (owner epart g) (at' (triMap (procSum d.tpp (owner epart g))
        (procSum d.tpp (owner epart g + 1)) (ghostsOf d m' width (owner epart g))) g)), ?_, rfl⟩
      simp only [List.mem_flatMap, List.mem_map]
      refine ⟨owner epart g, List.mem_range.mpr hlt, g, ?_, ?_⟩
      · unfold shared
        simp [hgh]
      · rw [hnum.at hk]

end

end Verif.Par
