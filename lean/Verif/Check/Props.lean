import Verif.Check.Spec

/-!
# Going on from checkpoint files
-/

set_option linter.unusedSectionVars false

namespace Verif.Check

variable {B T K D : Type} [DecidableEq B] [LinearOrder K]

theorem mapM_some_iff {α β : Type} (f : α → Option β) (l : List α) : (∃ r, l.mapM f = some r) ↔ ∀ a ∈ l, ∃ b, f a = some b := by
  induction l with
  | nil => simp
  | cons a l ih =>
    rw [List.mapM_cons]
    constructor
    · rintro ⟨r, hr⟩ b hb
      cases h1 : f a with
      | none => rw [h1] at hr; cases hr
      | some v =>
        cases h2 : l.mapM f with
        | none => rw [h1, h2] at hr; cases hr
        | some w =>
          rcases List.mem_cons.mp hb with rfl | hb
          · exact ⟨v, h1⟩
          · exact ih.mp ⟨w, h2⟩ b hb
    · intro h
      obtain ⟨v, hv⟩ := h a List.mem_cons_self
      obtain ⟨w, hw⟩ := ih.mpr fun b hb => h b (List.mem_cons_of_mem _ hb)
      exact ⟨v :: w, by rw [hv, hw]; rfl⟩

theorem mapM_getElem {α β : Type} (f : α → Option β) (l : List α) (r : List β) (h : l.mapM f = some r) (i : ℕ) : r[i]? = l[i]?.bind f := by
  induction l generalizing r i with
  | nil => simp at h; subst h; simp
  | cons a l ih =>
    rw [List.mapM_cons] at h
    cases h1 : f a with
    | none => rw [h1] at h; cases h
    | some v =>
      cases h2 : l.mapM f with
      | none => rw [h1, h2] at h; cases h
      | some w =>
        rw [h1, h2] at h
        cases h
        cases i with
        | zero => simp [h1]
        | succ i => simpa using ih w h2 i

theorem mapM_length {α β : Type} (f : α → Option β) (l : List α) (r : List β) (h : l.mapM f = some r) : r.length = l.length := by
  induction l generalizing r with
  | nil => simp at h; subst h; rfl
  | cons a l ih =>
    rw [List.mapM_cons] at h
    cases h1 : f a with
    | none => rw [h1] at h; cases h
    | some v =>
      cases h2 : l.mapM f with
      | none => rw [h1, h2] at h; cases h
      | some w =>
        rw [h1, h2] at h
        cases h
        simp [ih w h2]

theorem timesIn_spec (num : T → Option K) (name : B) (fs : List (B × T)) :
    ((∃ ts, timesIn num name fs = some ts) ↔ ∀ f ∈ fs, f.1 = name → ∃ t, num f.2 = some t) ∧
    ∀ ts, timesIn num name fs = some ts → ∀ t, t ∈ ts ↔ ∃ f ∈ fs, f.1 = name ∧ num f.2 = some t := by
  induction fs with
  | nil => exact ⟨by simp [timesIn], by intro ts h t; cases h; simp⟩
  | cons f fs ih =>
    obtain ⟨ih1, ih2⟩ := ih
    by_cases hf : f.1 = name
    · constructor
      · rw [timesIn, if_pos hf]
        constructor
        · rintro ⟨ts, h⟩ g hg hn
          cases h1 : num f.2 with
          | none => rw [h1] at h; cases h
          | some t =>
            cases h2 : timesIn num name fs with
            | none => rw [h1, h2] at h; cases h
            | some w =>
              rcases List.mem_cons.mp hg with rfl | hg
              · exact ⟨t, h1⟩
              · exact ih1.mp ⟨w, h2⟩ g hg hn
        · intro h
          obtain ⟨t, ht⟩ := h f List.mem_cons_self hf
          obtain ⟨w, hw⟩ := ih1.mpr fun g hg hn => h g (List.mem_cons_of_mem _ hg) hn
          exact ⟨t :: w, by rw [ht, hw]⟩
      · intro ts h t
        rw [timesIn, if_pos hf] at h
        cases h1 : num f.2 with
        | none => rw [h1] at h; cases h
        | some t' =>
          cases h2 : timesIn num name fs with
          | none => rw [h1, h2] at h; cases h
          | some w =>
            rw [h1, h2] at h
            cases h
            rw [List.mem_cons, ih2 w h2 t]
            constructor
            · rintro (rfl | ⟨g, hg, hx⟩)
              · exact ⟨f, List.mem_cons_self, hf, h1⟩
              · exact ⟨g, List.mem_cons_of_mem _ hg, hx⟩
            · rintro ⟨g, hg, hn, hx⟩
              rcases List.mem_cons.mp hg with rfl | hg
              · rw [h1] at hx; cases hx; exact .inl rfl
              · exact .inr ⟨g, hg, hn, hx⟩
    · have e : timesIn num name (f :: fs) = timesIn num name fs := by rw [timesIn, if_neg hf]
      rw [e]
      constructor
      · rw [ih1]
        constructor
        · intro h g hg hn
          rcases List.mem_cons.mp hg with rfl | hg
          · exact absurd hn hf
          · exact h g hg hn
        · intro h g hg hn; exact h g (List.mem_cons_of_mem _ hg) hn
      · intro ts h t
        rw [ih2 ts h t]
        constructor
        · rintro ⟨g, hg, hx⟩; exact ⟨g, List.mem_cons_of_mem _ hg, hx⟩
        · rintro ⟨g, hg, hn, hx⟩
          rcases List.mem_cons.mp hg with rfl | hg
          · exact absurd hn hf
          · exact ⟨g, hg, hn, hx⟩

theorem timesOf_spec (num : T → Option K) (name : B) (ds : List (List (B × T))) :
    ((∃ ts, timesOf num name ds = some ts) ↔ ∀ dir ∈ ds, dir ≠ [] ∧ ∀ f ∈ dir, f.1 = name → ∃ t, num f.2 = some t) ∧
    ∀ ts, timesOf num name ds = some ts → ∀ t, t ∈ ts ↔ ∃ dir ∈ ds, ∃ f ∈ dir, f.1 = name ∧ num f.2 = some t := by
  induction ds with
  | nil => exact ⟨by simp [timesOf], by intro ts h t; cases h; simp⟩
  | cons d ds ih =>
    obtain ⟨ih1, ih2⟩ := ih
    obtain ⟨s1, s2⟩ := timesIn_spec num name d
    by_cases hd : d = []
    · subst hd
      have e : timesOf num name ([] :: ds) = none := rfl
      rw [e]
      refine ⟨⟨?_, fun h => absurd rfl (h [] List.mem_cons_self).1⟩, ?_⟩
      · rintro ⟨_, h⟩; cases h
      · intro ts h; cases h
    · have e : timesOf num name (d :: ds) = (match timesIn num name d, timesOf num name ds with
          | some a, some b => some (a ++ b)
          | _, _ => none) := by
        rw [timesOf, if_neg hd]
        all_goals (cases timesIn num name d <;> cases timesOf num name ds <;> rfl)
      constructor
      · rw [e]
        constructor
        · rintro ⟨ts, h⟩ dir hdir
          cases h1 : timesIn num name d with
          | none => rw [h1] at h; cases h
          | some a =>
            cases h2 : timesOf num name ds with
            | none => rw [h1, h2] at h; cases h
            | some b =>
              rcases List.mem_cons.mp hdir with rfl | hdir
              · exact ⟨hd, s1.mp ⟨a, h1⟩⟩
              · exact ih1.mp ⟨b, h2⟩ dir hdir
        · intro h
          obtain ⟨a, ha⟩ := s1.mpr (h d List.mem_cons_self).2
          obtain ⟨b, hb⟩ := ih1.mpr fun dir hdir => h dir (List.mem_cons_of_mem _ hdir)
          exact ⟨a ++ b, by rw [ha, hb]⟩
      · intro ts h t
        rw [e] at h
        cases h1 : timesIn num name d with
        | none => rw [h1] at h; cases h
        | some a =>
          cases h2 : timesOf num name ds with
          | none => rw [h1, h2] at h; cases h
          | some b =>
            rw [h1, h2] at h
            cases h
            rw [List.mem_append, s2 a h1 t, ih2 b h2 t]
            constructor
            · rintro (h | ⟨dir, hdir, hx⟩)
              · exact ⟨d, List.mem_cons_self, h⟩
              · exact ⟨dir, List.mem_cons_of_mem _ hdir, hx⟩
            · rintro ⟨dir, hdir, hx⟩
              rcases List.mem_cons.mp hdir with rfl | hdir
              · exact .inl hx
              · exact .inr ⟨dir, hdir, hx⟩

theorem fold_mem (found : List (List K)) (p : ℕ) (l : List ℕ) (c : List K) (hc : c.Nodup) :
    (l.foldl (fun c cpu => if cpu = p then c else c.filter fun t => decide (t ∈ found.getD cpu [])) c).Nodup ∧
    ∀ t, t ∈ l.foldl (fun c cpu => if cpu = p then c else c.filter fun t => decide (t ∈ found.getD cpu [])) c ↔
      t ∈ c ∧ ∀ q ∈ l, q ≠ p → t ∈ found.getD q [] := by
  induction l generalizing c with
  | nil => simp [hc]
  | cons a l ih =>
    rw [List.foldl_cons]
    by_cases ha : a = p
    · rw [if_pos ha]
      refine ⟨(ih c hc).1, fun t => ?_⟩
      rw [(ih c hc).2 t]
      constructor
      · rintro ⟨h1, h2⟩
        refine ⟨h1, ?_⟩
        intro q hq hne
        rcases List.mem_cons.mp hq with rfl | hq
        · exact absurd ha hne
        · exact h2 q hq hne
      · rintro ⟨h1, h2⟩
        exact ⟨h1, fun q hq hne => h2 q (List.mem_cons_of_mem _ hq) hne⟩
    · rw [if_neg ha]
      have hn := hc.filter fun t => decide (t ∈ found.getD a [])
      refine ⟨(ih _ hn).1, fun t => ?_⟩
      rw [(ih _ hn).2 t, List.mem_filter]
      constructor
      · rintro ⟨⟨h1, h3⟩, h2⟩
        refine ⟨h1, ?_⟩
        intro q hq hne
        rcases List.mem_cons.mp hq with rfl | hq
        · simpa using h3
        · exact h2 q hq hne
      · rintro ⟨h1, h2⟩
        exact ⟨⟨h1, by simpa using h2 a List.mem_cons_self ha⟩, fun q hq hne => h2 q (List.mem_cons_of_mem _ hq) hne⟩

theorem combined_mem (found : List (List K)) (p : ℕ) (hp : p < found.length) (t : K) : t ∈ combined found p ↔ ∀ l ∈ found, t ∈ l := by
  unfold combined
  rw [(fold_mem found p _ _ (List.nodup_dedup _)).2 t, List.mem_dedup]
  constructor
  · rintro ⟨h1, h2⟩ l hl
    obtain ⟨q, hq⟩ := List.mem_iff_getElem?.mp hl
    have hlt : q < found.length := (List.getElem?_eq_some_iff.mp hq).1
    have hd : found.getD q [] = l := by rw [List.getD_eq_getElem?_getD, hq]; rfl
    by_cases hne : q = p
    · subst hne; rw [hd] at h1; exact h1
    · have := h2 q (List.mem_range.mpr hlt) hne
      rw [hd] at this
      exact this
  · intro h
    have key : ∀ q, q < found.length → t ∈ found.getD q [] := by
      intro q hq
      rw [List.getD_eq_getElem?_getD, List.getElem?_eq_getElem hq]
      exact h _ (List.getElem_mem _)
    exact ⟨key p hp, fun q hq _ => key q (List.mem_range.mp hq)⟩

theorem combined_nodup (found : List (List K)) (p : ℕ) : (combined found p).Nodup := (fold_mem found p _ _ (List.nodup_dedup _)).1

/-- All processors have the same times in the same order. -/
theorem sorted_eq (a b : List K) (ha : a.Nodup) (hb : b.Nodup) (h : ∀ t, t ∈ a ↔ t ∈ b) :
    a.insertionSort (· ≤ ·) = b.insertionSort (· ≤ ·) := by
  have hp : a.Perm b := (List.perm_ext_iff_of_nodup ha hb).mpr h
  have h1 := List.pairwise_insertionSort (· ≤ ·) a
  have h2 := List.pairwise_insertionSort (· ≤ ·) b
  exact (((List.perm_insertionSort _ a).trans hp).trans (List.perm_insertionSort _ b).symm).eq_of_pairwise (fun _ _ _ _ h h' => le_antisymm h h') h1 h2

theorem head_mapM (disks : List (Disk B T K D)) (t : K) (l : List K) :
    (disks.map fun _ => t :: l).mapM List.head? = some (disks.map fun _ => t) := by
  induction disks with
  | nil => rfl
  | cons d ds ih => rw [List.map_cons, List.mapM_cons, ih]; rfl

theorem zip_mapM (disks : List (Disk B T K D)) (t : K) :
    ((disks.zip (disks.map fun _ => t)).mapM fun e => e.1.load e.2) = disks.mapM fun d => d.load t := by
  induction disks with
  | nil => rfl
  | cons d ds ih => rw [List.map_cons, List.zip_cons_cons, List.mapM_cons, List.mapM_cons, ih]

/-- The rounds, when all go through the same times. -/
theorem rounds_same (disks : List (Disk B T K D)) (hd : disks ≠ []) (ts : List K) (n : ℕ) (hn : ts.length < n) :
    rounds disks n (disks.map fun _ => ts) = match ts.findSome? fun t => disks.mapM fun d => d.load t with
      | some ds => .loaded ds
      | none => .failed := by
  induction ts generalizing n with
  | nil =>
    obtain ⟨m, rfl⟩ : ∃ m, n = m + 1 := ⟨n - 1, by simp at hn; omega⟩
    rw [rounds, if_pos (by simp)]
    rfl
  | cons t ts ih =>
    obtain ⟨m, rfl⟩ : ∃ m, n = m + 1 := ⟨n - 1, by simp at hn; omega⟩
    have hne : ¬ ((disks.map fun _ => t :: ts).all List.isEmpty = true) := by
      cases disks with
      | nil => exact absurd rfl hd
      | cons d ds => simp
    rw [rounds, if_neg hne, head_mapM]
    simp only
    rw [zip_mapM, List.findSome?_cons]
    cases disks.mapM fun d => d.load t with
    | some ds => rfl
    | none =>
      simp only
      rw [← ih m (by simp at hn; omega), List.map_map]
      rfl

theorem allAt_of_mapM (disks : List (Disk B T K D)) (t : K) (ds : List D) (h : (disks.mapM fun d => d.load t) = some ds) : AllAt disks t ds := by
  refine ⟨mapM_length _ _ _ h, fun p d hp => ?_⟩
  rw [mapM_getElem _ _ _ h p, hp]
  rfl

/-- C120. All processors go on from the same checkpoint, the latest one of which all have a file that can be loaded; if there is none, all
of them fail. -/
theorem C120_latest (num : T → Option K) (disks : List (Disk B T K D)) (hd : disks ≠ []) (ht : ∀ d ∈ disks, Tidy num d) :
    (∃ t ds, loadAll num none disks = .loaded ds ∧ IsGreatest {t | Good num disks t} t ∧ AllAt disks t ds) ∨
    (loadAll num none disks = .failed ∧ ∀ t, ¬ Good num disks t) := by
  obtain ⟨found, hf⟩ := (mapM_some_iff (fun d : Disk B T K D => timesOf num d.name d.dirs) disks).mpr
    fun d h => (timesOf_spec num d.name d.dirs).1.mpr (ht d h)
  have hlen := mapM_length _ _ _ hf
  have hget := mapM_getElem _ _ _ hf
  have hpos : 0 < found.length := by rw [hlen]; exact List.length_pos_iff.mpr hd
  have has : ∀ t, (∀ l ∈ found, t ∈ l) ↔ ∀ d ∈ disks, Has num d t := by
    intro t
    constructor
    · intro h d hm
      obtain ⟨p, hp⟩ := List.mem_iff_getElem?.mp hm
      have hg := hget p
      rw [hp] at hg
      have hg' : found[p]? = timesOf num d.name d.dirs := hg
      have hlt : p < found.length := by rw [hlen]; exact (List.getElem?_eq_some_iff.mp hp).1
      rw [List.getElem?_eq_getElem hlt] at hg'
      exact ((timesOf_spec num d.name d.dirs).2 _ hg'.symm t).mp (h _ (List.getElem_mem _))
    · intro h l hl
      obtain ⟨p, hp⟩ := List.mem_iff_getElem?.mp hl
      have hg := hget p
      rw [hp] at hg
      cases hq : disks[p]? with
      | none => rw [hq] at hg; cases hg
      | some d =>
        rw [hq] at hg
        exact ((timesOf_spec num d.name d.dirs).2 l hg.symm t).mpr (h d (List.mem_of_getElem? hq))
  have hlists : ((List.range disks.length).map fun p => ((combined found p).insertionSort (· ≤ ·)).reverse) =
      disks.map fun _ => ((combined found 0).insertionSort (· ≤ ·)).reverse := by
    apply List.ext_getElem
    · simp
    · intro i h1 h2
      simp only [List.getElem_map, List.getElem_range]
      rw [sorted_eq _ _ (combined_nodup found i) (combined_nodup found 0) fun t => by
        rw [combined_mem found i (by rw [hlen]; simpa using h1), combined_mem found 0 hpos]]
  have e : loadAll num none disks = rounds disks ((((List.range disks.length).map fun p =>
      ((combined found p).insertionSort (· ≤ ·)).reverse).headD []).length + 1)
      ((List.range disks.length).map fun p => ((combined found p).insertionSort (· ≤ ·)).reverse) := by
    unfold loadAll
    simp only [hf]
  have hhead : ((disks.map fun _ => ((combined found 0).insertionSort (· ≤ ·)).reverse).headD []) = ((combined found 0).insertionSort (· ≤ ·)).reverse := by
    cases disks with
    | nil => exact absurd rfl hd
    | cons d ds => rfl
  rw [hlists, hhead, rounds_same disks hd _ _ (Nat.lt_succ_self _)] at e
  have hmem : ∀ t, t ∈ ((combined found 0).insertionSort (· ≤ ·)).reverse ↔ ∀ d ∈ disks, Has num d t := by
    intro t
    rw [List.mem_reverse, List.mem_insertionSort, combined_mem found 0 hpos, has]
  have hsort : (((combined found 0).insertionSort (· ≤ ·)).reverse).Pairwise (fun a b => b ≤ a) := by
    rw [List.pairwise_reverse]
    exact List.pairwise_insertionSort (· ≤ ·) _
  generalize ((combined found 0).insertionSort (· ≤ ·)).reverse = ts at e hmem hsort
  have good : ∀ t, Good num disks t ↔ t ∈ ts ∧ ∃ ds, (disks.mapM fun d => d.load t) = some ds := by
    intro t
    rw [hmem, mapM_some_iff]
    constructor
    · intro h; exact ⟨fun d hd => (h d hd).1, fun d hd => (h d hd).2⟩
    · rintro ⟨h1, h2⟩ d hd; exact ⟨h1 d hd, h2 d hd⟩
  cases hs : ts.findSome? fun t => disks.mapM fun d => d.load t with
  | some ds =>
    left
    rw [hs] at e
    obtain ⟨pre, t, post, rfl, h1, h2⟩ := List.findSome?_eq_some_iff.mp hs
    refine ⟨t, ds, e, ⟨(good t).mpr ⟨by simp, ds, h1⟩, ?_⟩, allAt_of_mapM disks t ds h1⟩
    intro u hu
    obtain ⟨hu1, dsu, hu2⟩ := (good u).mp hu
    rcases List.mem_append.mp hu1 with hu1 | hu1
    · rw [h2 u hu1] at hu2; cases hu2
    · rcases List.mem_cons.mp hu1 with rfl | hu1
      · exact le_rfl
      · exact List.rel_of_pairwise_cons (List.pairwise_append.mp hsort).2.1 hu1
  | none =>
    right
    rw [hs] at e
    refine ⟨e, fun t h => ?_⟩
    obtain ⟨h1, ds, h2⟩ := (good t).mp h
    rw [List.findSome?_eq_none_iff] at hs
    rw [hs t h1] at h2
    cases h2

/-- C120. A time which is given is taken if all processors can load their file of it; otherwise all of them fail. -/
theorem C120_given (num : T → Option K) (disks : List (Disk B T K D)) (hd : disks ≠ []) (t : K) :
    (∃ ds, loadAll num (some t) disks = .loaded ds ∧ AllAt disks t ds) ∨
    (loadAll num (some t) disks = .failed ∧ ∃ d ∈ disks, d.load t = none) := by
  have e : loadAll num (some t) disks = rounds disks 2 (disks.map fun _ => [t]) := rfl
  rw [rounds_same disks hd [t] 2 (by simp)] at e
  cases h : disks.mapM fun d => d.load t with
  | some ds =>
    left
    refine ⟨ds, ?_, allAt_of_mapM disks t ds h⟩
    rw [e]; simp [h]
  | none =>
    right
    refine ⟨by rw [e]; simp [h], ?_⟩
    by_contra hc
    push Not at hc
    obtain ⟨ds, hds⟩ := (mapM_some_iff (fun d : Disk B T K D => d.load t) disks).mpr fun d hd => Option.ne_none_iff_exists'.mp (hc d hd)
    rw [h] at hds
    cases hds

/-- C120. One processor which finds a directory without files, or a file of its domain without a time, has an exception, and the others wait for it. -/
theorem C120_broken (num : T → Option K) (disks : List (Disk B T K D)) (d : Disk B T K D) (hd : d ∈ disks) (ht : ¬ Tidy num d) :
    loadAll num none disks = .broken := by
  unfold loadAll
  cases h : disks.mapM fun d => timesOf num d.name d.dirs with
  | none => rfl
  | some found =>
    exfalso
    obtain ⟨ts, hts⟩ := (mapM_some_iff _ _).mp ⟨found, h⟩ d hd
    exact ht ((timesOf_spec num d.name d.dirs).1.mp ⟨ts, hts⟩)

end Verif.Check
