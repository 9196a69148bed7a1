import Verif.Csv.Lemmas

set_option linter.unusedSectionVars false

/-! # Tables: reading, columns, saving -/

namespace Verif.Csv

variable {C K : Type} [DecidableEq C]

/-- **C113.** A table is read if the columns asked for are there and no row is shorter than the first one, and only then. -/
theorem C113_readable (strip : C → C) (check head : List C) (lines : List (List C)) :
    (∃ t, load strip check (head :: lines) = .ok t) ↔
      (∀ c ∈ check, c ∈ head.map strip) ∧ ∀ r ∈ lines, head.length ≤ r.length := by
  have hget : ∀ (l : List C) (k : ℕ) (d : List (C × ℕ)) (c : C),
      (get c ((l.zipIdx k).foldl (fun d e => put e.1 e.2 d) d)).isSome ↔ c ∈ d.map Prod.fst ∨ c ∈ l := by
    intro l
    induction l with
    | nil =>
      intro k d c
      have := get_none c d
      cases h : get c d <;> simp_all
    | cons x l ih =>
      intro k d c
      rw [List.zipIdx_cons, List.foldl_cons, ih]
      have hk : c ∈ (put x k d).map Prod.fst ↔ c ∈ d.map Prod.fst ∨ c = x := by
        induction d with
        | nil => simp [put]
        | cons y d ihd =>
          obtain ⟨a, b⟩ := y
          rw [put]
          by_cases h : a = x
          · rw [if_pos h]
            subst h
            simp only [List.map_cons, List.mem_cons]
            tauto
          · rw [if_neg h]
            simp only [List.map_cons, List.mem_cons, ihd]
            tauto
      rw [hk, List.mem_cons]
      tauto
  rw [load]
  have h1 : (check.all fun t => (get t ((head.map strip).zipIdx.foldl (fun d e => put e.1 e.2 d) [])).isSome) = true ↔
      ∀ c ∈ check, c ∈ head.map strip := by
    rw [List.all_eq_true]
    exact forall₂_congr fun c _ => by rw [hget (head.map strip) 0 [] c]; simp
  by_cases h : ∀ c ∈ check, c ∈ head.map strip
  · rw [if_pos (h1.mpr h)]
    have h2 := addRows_some (head.map strip) [] lines
    rw [List.length_map] at h2
    rw [← h2]
    constructor
    · rintro ⟨t, ht⟩
      refine ⟨h, ?_⟩
      split at ht
      · cases ht
      · next d hd => exact ⟨d, hd⟩
    · rintro ⟨-, d, hd⟩
      rw [hd]
      exact ⟨_, rfl⟩
  · rw [if_neg (by rw [h1]; exact h)]
    constructor
    · rintro ⟨t, ht⟩; cases ht
    · rintro ⟨h', -⟩; exact absurd h' h

/-- **C113.** What has been read: the titles without blanks around them in their order, and under each title the entries of that column, one for
each row. -/
theorem C113_load {strip : C → C} {check head : List C} {lines : List (List C)} {t : Table C} (h : load strip check (head :: lines) = .ok t)
    (hn : (head.map strip).Nodup) (hne : head ≠ []) (hl : lines ≠ []) :
    ∃ cols, Shows t (head.map strip) cols lines.length ∧
      ∀ i j, i < lines.length → j < head.length → ((cols[j]?).bind fun c => c[i]?) = (lines[i]?).bind fun r => r[j]? := by
  have hr := ((C113_readable strip check head lines).mp ⟨t, h⟩).2
  obtain ⟨z, hz⟩ := List.exists_mem_of_ne_nil head hne
  have ho := addRows_ok (head.map strip) hn z lines hl (by simpa using hr)
  rw [load] at h
  split at h
  · rw [ho] at h
    cases h
    refine ⟨_, ⟨hn, by simpa using hne, by simp [colsOf], ?_, index_eq _ hn, rfl⟩, ?_⟩
    · intro c hc
      simp only [colsOf, List.mem_map] at hc
      obtain ⟨j, -, rfl⟩ := hc
      simp
    · intro i j hi hj
      have := hr lines[i] (List.getElem_mem hi)
      simp [colsOf, hj, hi, List.getElem?_eq_getElem (show j < lines[i].length by omega)]
  · cases h

/-- **C113.** Asking for a column gives it by its title; other titles are refused. -/
theorem C113_column {t : Table C} {titles : List C} {cols : List (List C)} {n : ℕ} (h : Shows t titles cols n) (name : C) (vals : List C) :
    column t name = .ok vals ↔ ∃ j : ℕ, titles[j]? = some name ∧ cols[j]? = some vals := by
  rw [column, h.columns]
  constructor
  · intro hc
    by_cases hm : name ∈ titles
    · obtain ⟨j, hj⟩ := List.getElem?_of_mem hm
      rw [get_zip titles cols h.distinct j name hj] at hc
      refine ⟨j, hj, ?_⟩
      split at hc
      · cases hc
      · next c e => cases hc; exact e
    · rw [(get_none name _).mpr (by rw [List.map_fst_zip (by rw [h.each])]; exact hm)] at hc
      cases hc
  · rintro ⟨j, hj, hv⟩
    rw [get_zip titles cols h.distinct j name hj, hv]

theorem rowCount_shows {t : Table C} {titles : List C} {cols : List (List C)} {n : ℕ} (h : Shows t titles cols n) : rowCount t = .ok n := by
  cases titles with
  | nil => exact absurd rfl h.some
  | cons k titles =>
    have hl := h.each
    cases cols with
    | nil => simp at hl
    | cons c cols =>
      rw [rowCount, h.index, h.columns, List.zipIdx_cons]
      simp [get, h.full c List.mem_cons_self]

/-- **C113.** Adding a column puts it at the right end and leaves the others as they are. -/
theorem C113_add {t : Table C} {titles : List C} {cols : List (List C)} {n : ℕ} (h : Shows t titles cols n) (name : C) (vals : List C) (o : Bool)
    (hv : vals.length = n) (hm : name ∉ titles) :
    ∃ t', setColumn t name vals o = .ok t' ∧ Shows t' (titles ++ [name]) (cols ++ [vals]) n := by
  have hk : name ∉ t.columns.map Prod.fst := by rw [h.columns, List.map_fst_zip (by rw [h.each])]; exact hm
  have hi : name ∉ t.index.map Prod.fst := by rw [h.index, List.zipIdx_map_fst]; exact hm
  refine ⟨⟨put name vals t.columns, put name t.index.length t.index⟩, ?_, ?_⟩
  · rw [setColumn, rowCount_shows h]
    simp only
    rw [if_neg (by simp [hv]), (get_none name _).mpr hk]
    simp
  · refine ⟨?_, by simp, by simp [h.each], ?_, ?_, ?_⟩
    · rw [List.nodup_append]
      exact ⟨h.distinct, by simp, by intro a ha b hb; simp at hb; subst hb; rintro rfl; exact hm ha⟩
    · intro c hc
      rw [List.mem_append] at hc
      rcases hc with hc | hc
      · exact h.full c hc
      · simp at hc; rw [hc, hv]
    · show put name t.index.length t.index = _
      rw [put_new _ _ _ hi, h.index, List.zipIdx_append]
      simp
    · show put name vals t.columns = _
      rw [put_new _ _ _ hk, h.columns, List.zip_append (by rw [h.each])]
      simp

/-- **C113.** A column that is there is changed only if this is asked for; it keeps its place, and the others are as they were. -/
theorem C113_overwrite {t : Table C} {titles : List C} {cols : List (List C)} {n : ℕ} (h : Shows t titles cols n) (vals : List C)
    (hv : vals.length = n) (j : ℕ) (hj : j < titles.length) :
    setColumn t titles[j] vals false = .error .inUse ∧
    ∃ t', setColumn t titles[j] vals true = .ok t' ∧ Shows t' titles (cols.set j vals) n := by
  have hjc : j < cols.length := by rw [h.each]; exact hj
  have hg : get titles[j] t.columns = some cols[j] := by
    rw [h.columns, get_zip titles cols h.distinct j _ (List.getElem?_eq_getElem hj), List.getElem?_eq_getElem hjc]
  refine ⟨?_, ⟨{ t with columns := put titles[j] vals t.columns }, ?_, ?_⟩⟩
  · rw [setColumn, rowCount_shows h]
    simp only
    rw [if_neg (by simp [hv]), hg]
    simp
  · rw [setColumn, rowCount_shows h]
    simp only
    rw [if_neg (by simp [hv]), hg]
    simp
  · refine ⟨h.distinct, h.some, by simp [h.each], ?_, h.index, ?_⟩
    · intro c hc
      rcases List.mem_or_eq_of_mem_set hc with hc | hc
      · exact h.full c hc
      · rw [hc, hv]
    · show put titles[j] vals t.columns = _
      have e : ∀ (ts : List C) (cs : List (List C)) (j : ℕ) (h1 : j < ts.length), ts.Nodup → cs.length = ts.length →
          put ts[j] vals (ts.zip cs) = ts.zip (cs.set j vals) := by
        intro ts
        induction ts with
        | nil => intro cs j h1; simp at h1
        | cons k ts ih =>
          intro cs j h1 hn hc
          rw [List.nodup_cons] at hn
          cases cs with
          | nil => simp at hc
          | cons c cs =>
            cases j with
            | zero => simp [put]
            | succ j =>
              have hj' : j < ts.length := by simpa using h1
              have hne : k ≠ ts[j] := by rintro rfl; exact hn.1 (List.getElem_mem hj')
              simp only [List.zip_cons_cons, List.getElem_cons_succ, List.set_cons_succ, put]
              rw [if_neg hne, ih cs j hj' hn.2 (by simpa using hc)]
      rw [h.columns]
      exact e titles cols j hj h.distinct h.each

/-- **C113.** A column with more or fewer values than there are rows is refused. -/
theorem C113_wrong_number {t : Table C} {titles : List C} {cols : List (List C)} {n : ℕ} (h : Shows t titles cols n) (name : C) (vals : List C)
    (o : Bool) (hv : vals.length ≠ n) : setColumn t name vals o = .error .count := by
  rw [setColumn, rowCount_shows h]
  simp only
  rw [if_pos hv]

theorem saveRows_shows {t : Table C} {titles : List C} {cols : List (List C)} {n : ℕ} (h : Shows t titles cols n) (m i : ℕ) (hm : i + m = n) :
    saveRows t i m = .ok ((List.range' i m).map fun i => cols.map fun c => c[i]?) := by
  induction m generalizing i with
  | zero => simp [saveRows]
  | succ m ih =>
    have hi : ∀ c ∈ cols, i < c.length := fun c hc => by rw [h.full c hc]; omega
    obtain ⟨vs, hvs⟩ : ∃ vs : List C, vs.map some = cols.map fun c => c[i]? := by
      have : ∀ cs : List (List C), (∀ c ∈ cs, i < c.length) → ∃ vs : List C, vs.map some = cs.map fun c => c[i]? := by
        intro cs
        induction cs with
        | nil => intro _; exact ⟨[], rfl⟩
        | cons c cs ih =>
          intro h
          obtain ⟨vs, e⟩ := ih fun c hc => h c (List.mem_cons_of_mem _ hc)
          exact ⟨c[i]'(h c List.mem_cons_self) :: vs, by simp [e, h c List.mem_cons_self]⟩
      exact this cols hi
    have hlen : vs.length = titles.length := by
      have := congrArg List.length hvs
      simp at this
      rw [this, h.each]
    have hc : cells t.columns i t.index = .ok ((vs.zipIdx 0).map fun e => (e.2, e.1)) := by
      rw [h.index]
      refine cells_ok t.columns i 0 titles vs hlen ?_
      intro j hj
      have hjc : j < cols.length := by rw [h.each]; exact hj
      refine ⟨cols[j], ?_, ?_⟩
      · rw [h.columns, get_zip titles cols h.distinct j _ (List.getElem?_eq_getElem hj), List.getElem?_eq_getElem hjc]
      · have := congrArg (fun l => l[j]?) hvs
        simp [hjc, List.getElem?_eq_getElem (show j < vs.length by omega)] at this
        rw [List.getElem?_eq_getElem (show j < vs.length by omega), ← this]
    have hlen' : t.index.length = vs.length := by rw [h.index, List.length_zipIdx, hlen]
    rw [saveRows, hc]
    simp only
    rw [hlen', place_zip vs]
    simp only
    rw [ih (i + 1) (by omega), List.range'_succ, List.map_cons, hvs]

/-- **C113.** Saving writes the titles in their order and then the rows, with every entry under its title. -/
theorem C113_save {t : Table C} {titles : List C} {cols : List (List C)} {n : ℕ} (h : Shows t titles cols n) :
    save t = .ok (titles.map some :: (List.range n).map fun i => cols.map fun c => c[i]?) := by
  have hh : place t.index.length (t.index.map fun e => (e.2, e.1)) = .ok (titles.map some) := by
    rw [h.index, List.length_zipIdx]
    exact place_zip titles
  rw [save, hh, rowCount_shows h]
  simp only
  rw [saveRows_shows h n 0 (by omega), List.range_eq_range']

/-- **C113.** Saving a table and reading the file again gives the table that was saved. -/
theorem C113_again {t : Table C} {titles : List C} {cols : List (List C)} {n : ℕ} (h : Shows t titles cols n) (hn : 0 < n) (strip : C → C)
    (hs : ∀ c ∈ titles, strip c = c) :
    ∃ rows, save t = .ok (rows.map fun r => r.map some) ∧ load strip [] rows = .ok t := by
  obtain ⟨z, hz⟩ := List.exists_mem_of_ne_nil titles h.some
  let lines := (List.range n).map fun i => cols.map fun c => c.getD i z
  have hst : titles.map strip = titles := by
    conv_rhs => rw [← List.map_id titles]
    exact List.map_congr_left fun c hc => hs c hc
  refine ⟨titles :: lines, ?_, ?_⟩
  · rw [C113_save h]
    congr 1
    rw [List.map_cons]
    congr 1
    simp only [lines, List.map_map]
    refine List.map_congr_left fun i hi => ?_
    simp only [Function.comp, List.map_map]
    refine List.map_congr_left fun c hc => ?_
    have : i < c.length := by rw [h.full c hc]; exact List.mem_range.mp hi
    simp [this]
  · have hl : lines ≠ [] := by
      intro e
      have := congrArg List.length e
      simp [lines] at this
      omega
    have ho := addRows_ok titles h.distinct z lines hl (by simp [lines, h.each])
    have hc : colsOf titles.length lines z = cols := by
      apply List.ext_getElem
      · simp [colsOf, h.each]
      · intro j h1 h2
        apply List.ext_getElem
        · simp [colsOf, lines, h.full cols[j] (List.getElem_mem h2)]
        · intro i h3 h4
          simp [colsOf, lines, h2, h4]
    rw [load]
    simp only [List.all_nil, if_true]
    rw [hst, ho, hc, index_eq _ h.distinct, ← h.index, ← h.columns]

end Verif.Csv
