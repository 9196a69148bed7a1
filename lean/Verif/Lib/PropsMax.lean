import Verif.Lib.Spec

/-!
# Greatest values of rasters
-/

set_option linter.unusedSectionVars false

namespace Verif.Lib

variable {S K : Type} [DecidableEq S] [Field K] [LinearOrder K]

theorem mapM_some_iff {α β : Type} (f : α → Option β) (l : List α) : (∃ r, l.mapM f = some r) ↔ ∀ a ∈ l, ∃ b, f a = some b := by
  induction l with
  | nil => simp
  | cons a l ih =>
    rw [List.mapM_cons]
    constructor
    · rintro ⟨r, hr⟩ b hb
      cases h1 : f a with
      | none => rw [h1] at hr; cases hr
      | some v =>
        cases h2 : l.mapM f with
        | none => rw [h1, h2] at hr; cases hr
        | some w =>
          rcases List.mem_cons.mp hb with rfl | hb
          · exact ⟨v, h1⟩
          · exact ih.mp ⟨w, h2⟩ b hb
    · intro h
      obtain ⟨v, hv⟩ := h a List.mem_cons_self
      obtain ⟨w, hw⟩ := ih.mpr fun b hb => h b (List.mem_cons_of_mem _ hb)
      exact ⟨v :: w, by rw [hv, hw]; rfl⟩

theorem mapM_getElem {α β : Type} (f : α → Option β) (l : List α) (r : List β) (h : l.mapM f = some r) (i : ℕ) : r[i]? = l[i]?.bind f := by
  induction l generalizing r i with
  | nil => simp at h; subst h; simp
  | cons a l ih =>
    rw [List.mapM_cons] at h
    cases h1 : f a with
    | none => rw [h1] at h; cases h
    | some v =>
      cases h2 : l.mapM f with
      | none => rw [h1, h2] at h; cases h
      | some w =>
        rw [h1, h2] at h
        cases h
        cases i with
        | zero => simp [h1]
        | succ i => simpa using ih w h2 i

theorem mapM_length {α β : Type} (f : α → Option β) (l : List α) (r : List β) (h : l.mapM f = some r) : r.length = l.length := by
  have e := fun i => mapM_getElem f l r h i
  have all := (mapM_some_iff f l).mp ⟨r, h⟩
  apply Nat.le_antisymm
  · by_contra hc
    have := e l.length
    rw [List.getElem?_eq_getElem (by omega)] at this
    simp at this
  · by_contra hc
    have := e r.length
    rw [List.getElem?_eq_getElem (l := l) (by omega)] at this
    obtain ⟨b, hb⟩ := all (l[r.length]) (List.getElem_mem _)
    simp [hb] at this

theorem mapM_mem {α β : Type} (f : α → Option β) (l : List α) (r : List β) (h : l.mapM f = some r) (b : β) : b ∈ r ↔ ∃ a ∈ l, f a = some b := by
  have e := fun i => mapM_getElem f l r h i
  constructor
  · intro hb
    obtain ⟨i, hi⟩ := List.mem_iff_getElem?.mp hb
    rw [e i] at hi
    cases ha : l[i]? with
    | none => rw [ha] at hi; cases hi
    | some a => rw [ha] at hi; exact ⟨a, List.mem_of_getElem? ha, hi⟩
  · rintro ⟨a, ha, hf⟩
    obtain ⟨i, hi⟩ := List.mem_iff_getElem?.mp ha
    have := e i
    rw [hi] at this
    exact List.mem_of_getElem? (this.trans hf)

theorem fold_greatest (i : ℕ) (rows : List (List K)) (m : K) :
    IsGreatest {v | v = m ∨ ∃ d ∈ rows, v = d.getD i 0} (rows.foldl (fun m d => if m < d.getD i 0 then d.getD i 0 else m) m) := by
  induction rows generalizing m with
  | nil => exact ⟨.inl rfl, by rintro v (rfl | ⟨d, hd, -⟩); exacts [le_rfl, absurd hd (by simp)]⟩
  | cons a rows ih =>
    obtain ⟨h1, h2⟩ := ih (if m < a.getD i 0 then a.getD i 0 else m)
    have le1 : m ≤ if m < a.getD i 0 then a.getD i 0 else m := by
      by_cases h : m < a.getD i 0
      · rw [if_pos h]; exact h.le
      · rw [if_neg h]
    have le2 : a.getD i 0 ≤ if m < a.getD i 0 then a.getD i 0 else m := by
      by_cases h : m < a.getD i 0
      · rw [if_pos h]
      · rw [if_neg h]; exact not_lt.mp h
    have top := h2 (Or.inl rfl)
    rw [List.foldl_cons]
    constructor
    · rcases h1 with h | ⟨d, hd, h⟩
      · by_cases hc : m < a.getD i 0
        · rw [if_pos hc] at h ⊢; exact .inr ⟨a, List.mem_cons_self, h⟩
        · rw [if_neg hc] at h ⊢; exact .inl h
      · exact .inr ⟨d, List.mem_cons_of_mem _ hd, h⟩
    · rintro v (rfl | ⟨d, hd, rfl⟩)
      · exact le1.trans top
      · rcases List.mem_cons.mp hd with rfl | hd
        · exact le2.trans top
        · exact h2 (.inr ⟨d, hd, rfl⟩)

/-- One line. -/
theorem maxLine_spec (T : Text S K) (ls : List S) (out : List K) (h : maxLine T ls = some out) : (∃ l ∈ ls, T.blank l = false) ∧
    (∀ l ∈ ls, T.blank l = false → ∃ r, T.nums l = some r ∧ r.length = out.length) ∧
    ∀ (i : ℕ) (v : K), out[i]? = some v → IsGreatest {x | ∃ l ∈ ls, T.blank l = false ∧ ∃ r, T.nums l = some r ∧ r[i]? = some x} v := by
  unfold maxLine at h
  cases hm : (ls.filter fun l => !T.blank l).mapM T.nums with
  | none => rw [hm] at h; cases h
  | some rows =>
    rw [hm] at h
    have mem := mapM_mem _ _ _ hm
    have all := (mapM_some_iff _ _).mp ⟨rows, hm⟩
    cases rows with
    | nil => cases h
    | cons r rs =>
      by_cases hc : (rs.all fun d => d.length == r.length) = true
      · simp only [hc, if_true, Option.some.injEq] at h
        subst h
        have hlen : ∀ d ∈ r :: rs, d.length = r.length := by
          intro d hd
          rcases List.mem_cons.mp hd with rfl | hd
          · rfl
          · simpa using List.all_eq_true.mp hc d hd
        refine ⟨?_, ?_, ?_⟩
        · obtain ⟨l, hl, -⟩ := (mem r).mp List.mem_cons_self
          simp only [List.mem_filter, Bool.not_eq_true'] at hl
          exact ⟨l, hl⟩
        · intro l hl hb
          have hf : l ∈ ls.filter fun l => !T.blank l := by simp [hl, hb]
          obtain ⟨d, hd⟩ := all l hf
          exact ⟨d, hd, by simpa using hlen d ((mem d).mpr ⟨l, hf, hd⟩)⟩
        · intro i v hv
          have hi : i < r.length := by
            by_contra hi
            rw [List.getElem?_eq_none (by simpa using hi)] at hv
            cases hv
          simp only [List.getElem?_map, List.getElem?_range hi, Option.map_some, Option.some.injEq] at hv
          subst hv
          have G := fold_greatest i (r :: rs) (r.getD i 0)
          have same : {x | x = r.getD i 0 ∨ ∃ d ∈ r :: rs, x = d.getD i 0} =
              {x | ∃ l ∈ ls, T.blank l = false ∧ ∃ r, T.nums l = some r ∧ r[i]? = some x} := by
            ext x
            constructor
            · intro hx
              have hx : ∃ d ∈ r :: rs, x = d.getD i 0 := by
                rcases hx with hx | hx
                · exact ⟨r, List.mem_cons_self, hx⟩
                · exact hx
              obtain ⟨d, hd, rfl⟩ := hx
              obtain ⟨l, hl, hn⟩ := (mem d).mp hd
              simp only [List.mem_filter, Bool.not_eq_true'] at hl
              refine ⟨l, hl.1, hl.2, d, hn, ?_⟩
              rw [List.getD_eq_getElem?_getD, List.getElem?_eq_getElem (by rw [hlen d hd]; exact hi)]
              rfl
            · rintro ⟨l, hl, hb, d, hn, hx⟩
              refine .inr ⟨d, (mem d).mpr ⟨l, by simp [hl, hb], hn⟩, ?_⟩
              rw [List.getD_eq_getElem?_getD, hx]; rfl
          rw [← same]
          exact G
      · simp only [Bool.not_eq_true] at hc
        simp [hc] at h

/-- The lines of row `k`. -/
theorem mem_lines (files : List (List S)) (k : ℕ) (l : S) : l ∈ (files.filterMap fun g => g[6 + k]?) ↔ ∃ f ∈ files, f[6 + k]? = some l := by
  simp [List.mem_filterMap]

theorem headLine_spec (files : List (List S)) (f : List S) (hf : f ∈ files) (i : ℕ) (l : S) :
    headLine files i = some l ↔ ∀ g ∈ files, g[i]? = some l := by
  cases files with
  | nil => simp at hf
  | cons g gs =>
    unfold headLine
    constructor
    · intro h
      cases hg : g[i]? with
      | none => simp [hg] at h
      | some l' =>
        simp only [hg] at h
        by_cases hc : ((g :: gs).all fun g => decide (g[i]? = some l')) = true
        · rw [if_pos hc] at h
          cases h
          intro a ha
          simpa using List.all_eq_true.mp hc a ha
        · rw [if_neg hc] at h; cases h
    · intro h
      have hg := h g List.mem_cons_self
      simp only [hg]
      rw [if_pos]
      rw [List.all_eq_true]
      intro a ha
      simpa using h a ha

/-- C117. What is written when files of rasters are put together: their common header, and at every place the greatest of the numbers there. -/
theorem C117_greatest (T : Text S K) (files : List (List S)) (head : List S) (out : List (List K)) (h : maxAsc T files = some (head, out)) :
    (∀ f ∈ files, f.take 6 = head ∧ f.length = 6 + out.length) ∧
    ∀ k row, out[k]? = some row → Columns T files k row.length ∧ ∀ i v, row[i]? = some v → IsGreatest {x | Occurs T files k i x} v := by
  cases files with
  | nil => cases h
  | cons f fs =>
    unfold maxAsc at h
    simp only at h
    by_cases hc : ((f :: fs).all fun g => g.length == f.length) = true
    · rw [if_pos hc] at h
      have hlen : ∀ g ∈ f :: fs, g.length = f.length := fun g hg => by simpa using List.all_eq_true.mp hc g hg
      cases h1 : (List.range 6).mapM (headLine (f :: fs)) with
      | none => rw [h1] at h; cases h
      | some hd =>
        rw [h1] at h
        cases h2 : (List.range (f.length - 6)).mapM fun k => maxLine T ((f :: fs).filterMap fun g => g[6 + k]?) with
        | none => rw [h2] at h; cases h
        | some rows =>
          rw [h2] at h
          cases h
          have e1 := mapM_getElem _ _ _ h1
          have l1 := mapM_length _ _ _ h1
          have l2 := mapM_length _ _ _ h2
          have e2 := mapM_getElem _ _ _ h2
          simp only [List.length_range] at l1 l2
          have heads : ∀ g ∈ f :: fs, ∀ i, i < 6 → g[i]? = head[i]? := by
            intro g hg i hi
            have := e1 i
            rw [List.getElem?_range hi, List.getElem?_eq_getElem (l1 ▸ hi)] at this
            have := (headLine_spec (f :: fs) f List.mem_cons_self i _).mp this.symm g hg
            rw [this, List.getElem?_eq_getElem (l1 ▸ hi)]
          have six : 6 ≤ f.length := by
            by_contra hs
            have := heads f List.mem_cons_self 5 (by omega)
            rw [List.getElem?_eq_none (by omega), List.getElem?_eq_getElem (by omega)] at this
            cases this
          refine ⟨?_, ?_⟩
          · intro g hg
            refine ⟨?_, by rw [hlen g hg]; omega⟩
            apply List.ext_getElem?
            intro i
            by_cases hi : i < 6
            · rw [List.getElem?_take_of_lt hi, heads g hg i hi]
            · rw [List.getElem?_eq_none (by simp; omega), List.getElem?_eq_none (by omega)]
          · intro k row hk
            have hk' : k < f.length - 6 := by
              by_contra hn
              rw [List.getElem?_eq_none (by omega)] at hk
              cases hk
            have := e2 k
            rw [hk, List.getElem?_range hk'] at this
            obtain ⟨g1, g2, g3⟩ := maxLine_spec T _ row this.symm
            refine ⟨⟨?_, ?_⟩, ?_⟩
            · obtain ⟨l, hl, hb⟩ := g1
              obtain ⟨g, hg, hgl⟩ := (mem_lines _ _ _).mp hl
              exact ⟨g, hg, l, hgl, hb⟩
            · intro g hg l hl hb
              exact g2 l ((mem_lines _ _ _).mpr ⟨g, hg, hl⟩) hb
            · intro i v hv
              have G := g3 i v hv
              have same : {x | ∃ l ∈ ((f :: fs).filterMap fun g => g[6 + k]?), T.blank l = false ∧ ∃ r, T.nums l = some r ∧ r[i]? = some x} =
                  {x | Occurs T (f :: fs) k i x} := by
                ext x
                constructor
                · rintro ⟨l, hl, hx⟩
                  obtain ⟨g, hg, hgl⟩ := (mem_lines _ _ _).mp hl
                  exact ⟨g, hg, l, hgl, hx⟩
                · rintro ⟨g, hg, l, hgl, hx⟩
                  exact ⟨l, (mem_lines _ _ _).mpr ⟨g, hg, hgl⟩, hx⟩
              rw [← same]
              exact G
    · rw [if_neg hc] at h; cases h

theorem maxLine_exists (T : Text S K) (files : List (List S)) (k n : ℕ) (h : Columns T files k n) :
    ∃ o, maxLine T (files.filterMap fun g => g[6 + k]?) = some o := by
  obtain ⟨⟨f, hf, l, hl, hb⟩, h2⟩ := h
  obtain ⟨rows, hm⟩ := (mapM_some_iff T.nums ((files.filterMap fun g => g[6 + k]?).filter fun l => !T.blank l)).mpr (by
    intro a ha
    simp only [List.mem_filter, Bool.not_eq_true'] at ha
    obtain ⟨g, hg, hgl⟩ := (mem_lines _ _ _).mp ha.1
    obtain ⟨r, hr, -⟩ := h2 g hg a hgl ha.2
    exact ⟨r, hr⟩)
  have mem := mapM_mem _ _ _ hm
  have hlen : ∀ d ∈ rows, d.length = n := by
    intro d hd
    obtain ⟨a, ha, hn⟩ := (mem d).mp hd
    simp only [List.mem_filter, Bool.not_eq_true'] at ha
    obtain ⟨g, hg, hgl⟩ := (mem_lines _ _ _).mp ha.1
    obtain ⟨r, hr, hl⟩ := h2 g hg a hgl ha.2
    rw [hn] at hr
    cases hr
    exact hl
  obtain ⟨r0, hr0, -⟩ := h2 f hf l hl hb
  have hin : r0 ∈ rows := (mem r0).mpr ⟨l, List.mem_filter.mpr ⟨(mem_lines _ _ _).mpr ⟨f, hf, hl⟩, by simp [hb]⟩, hr0⟩
  cases rows with
  | nil => simp at hin
  | cons r rs =>
    have hc : (rs.all fun d => d.length == r.length) = true := by
      rw [List.all_eq_true]
      intro d hd
      simp [hlen d (List.mem_cons_of_mem _ hd), hlen r List.mem_cons_self]
    exact ⟨(List.range r.length).map fun i => maxAt i r (r :: rs), by unfold maxLine; rw [hm]; simp only [hc, if_true]⟩

/-- C117. Files are put together exactly when they can be compared. -/
theorem C117_taken (T : Text S K) (files : List (List S)) : (maxAsc T files).isSome = true ↔ Alike T files := by
  constructor
  · intro h
    obtain ⟨⟨head, out⟩, h⟩ := Option.isSome_iff_exists.mp h
    obtain ⟨h1, h2⟩ := C117_greatest T files head out h
    refine ⟨?_, ?_, ?_, ?_, ?_⟩
    · rintro rfl; cases h
    · intro f hf g hg; rw [(h1 f hf).2, (h1 g hg).2]
    · intro f hf g hg; rw [(h1 f hf).1, (h1 g hg).1]
    · intro f hf; have := (h1 f hf).2; omega
    · rintro k ⟨f, hf, hk⟩
      have := (h1 f hf).2
      exact ⟨_, (h2 k _ (List.getElem?_eq_getElem (by omega))).1⟩
  · intro h
    cases files with
    | nil => exact absurd rfl h.some'
    | cons f fs =>
      have hc : ((f :: fs).all fun g => g.length == f.length) = true := by
        rw [List.all_eq_true]
        intro g hg
        simpa using h.lines g hg f List.mem_cons_self
      have six := h.six f List.mem_cons_self
      obtain ⟨hd, h1⟩ := (mapM_some_iff (headLine (f :: fs)) (List.range 6)).mpr (by
        intro i hi
        have hi : i < 6 := List.mem_range.mp hi
        refine ⟨f[i], (headLine_spec _ f List.mem_cons_self i _).mpr ?_⟩
        intro g hg
        have := congrArg (fun l : List S => l[i]?) (h.header g hg f List.mem_cons_self)
        simp only [List.getElem?_take_of_lt hi] at this
        rw [this, List.getElem?_eq_getElem (by omega)])
      obtain ⟨rows, h2⟩ := (mapM_some_iff (fun k => maxLine T ((f :: fs).filterMap fun g => g[6 + k]?)) (List.range (f.length - 6))).mpr (by
        intro k hk
        have hk := List.mem_range.mp hk
        obtain ⟨n, hn⟩ := h.rows k ⟨f, List.mem_cons_self, by omega⟩
        exact maxLine_exists T _ k n hn)
      unfold maxAsc
      simp only [if_pos hc, h1, h2]
      rfl

end Verif.Lib
