import Verif.Csv.ModelMerge

set_option linter.unusedSectionVars false

/-! # C116: columns of several tables side by side -/

namespace Verif.Csv

variable {C : Type} [DecidableEq C]

/-- `s` are the keys and data of the rows of a file which have both; the first columns of the titles asked for are taken. -/
def Series (strip : C → C) (key data : C) (rows : List (List C)) (s : List (C × C)) : Prop :=
  ∃ (head : List C) (lines : List (List C)) (k d : ℕ), rows = head :: lines ∧
    ((head.map strip)[k]? = some key ∧ ∀ i < k, (head.map strip)[i]? ≠ some key) ∧
    ((head.map strip)[d]? = some data ∧ ∀ i < d, (head.map strip)[i]? ≠ some data) ∧
    s = lines.filterMap fun r => (r[k]?).bind fun a => (r[d]?).map fun b => (strip a, strip b)

theorem position_some (name : C) (l : List C) (k : ℕ) : position name l = some k ↔ l[k]? = some name ∧ ∀ i < k, l[i]? ≠ some name := by
  induction l generalizing k with
  | nil => simp [position]
  | cons c l ih =>
    rw [position]
    by_cases h : c = name
    · rw [if_pos h]
      subst h
      constructor
      · intro hk; cases hk; exact ⟨rfl, by intro i hi; omega⟩
      · rintro ⟨h1, h2⟩
        cases k with
        | zero => rfl
        | succ k => exact absurd (by simp) (h2 0 (by omega))
    · rw [if_neg h]
      cases k with
      | zero => simp [h]
      | succ k =>
        simp only [Option.map_eq_some_iff, Nat.add_right_cancel_iff, exists_eq_right, ih, List.getElem?_cons_succ]
        constructor
        · rintro ⟨h1, h2⟩
          refine ⟨h1, fun i hi => ?_⟩
          cases i with
          | zero => simpa using h
          | succ i => simpa using h2 i (by omega)
        · rintro ⟨h1, h2⟩
          exact ⟨h1, fun i hi => by simpa using h2 (i + 1) (by omega)⟩

theorem pairs_eq (strip : C → C) (k d : ℕ) (lines : List (List C)) :
    pairs strip k d lines = lines.filterMap fun r => (r[k]?).bind fun a => (r[d]?).map fun b => (strip a, strip b) := by
  induction lines with
  | nil => rfl
  | cons r lines ih =>
    rw [pairs, List.filterMap_cons]
    cases h1 : r[k]? with
    | none => simpa using ih
    | some a =>
      cases h2 : r[d]? with
      | none => simpa using ih
      | some b => simpa using ih

theorem readPairs_iff (strip : C → C) (key data : C) (rows : List (List C)) (s : List (C × C)) :
    readPairs strip key data rows = .ok s ↔ Series strip key data rows s := by
  constructor
  · intro h
    unfold readPairs at h
    cases rows with
    | nil => cases h
    | cons head lines =>
      simp only at h
      cases h1 : position key (head.map strip) with
      | none => rw [h1] at h; cases h
      | some k =>
        cases h2 : position data (head.map strip) with
        | none => rw [h1, h2] at h; cases h
        | some d =>
          rw [h1, h2] at h
          cases h
          exact ⟨head, lines, k, d, rfl, (position_some _ _ _).mp h1, (position_some _ _ _).mp h2, pairs_eq strip k d lines⟩
  · rintro ⟨head, lines, k, d, rfl, h1, h2, rfl⟩
    unfold readPairs
    simp only
    rw [(position_some _ _ _).mpr h1, (position_some _ _ _).mpr h2]
    simp only
    rw [pairs_eq]

theorem readFiles_iff (strip : C → C) (key data : C) (files : List (List (List C) × C)) (r : List (C × List (C × C))) :
    readFiles strip key data files = .ok r ↔ List.Forall₂ (fun f q => f.2 = q.1 ∧ Series strip key data f.1 q.2) files r := by
  induction files generalizing r with
  | nil =>
    rw [readFiles, List.forall₂_nil_left_iff]
    constructor
    · intro h; cases h; rfl
    · rintro rfl; rfl
  | cons f files ih =>
    obtain ⟨rows, title⟩ := f
    rw [readFiles, List.forall₂_cons_left_iff]
    constructor
    · intro h
      cases h1 : readPairs strip key data rows with
      | error e => rw [h1] at h; cases h
      | ok d =>
        rw [h1] at h
        simp only at h
        cases h2 : readFiles strip key data files with
        | error e => rw [h2] at h; cases h
        | ok r' =>
          rw [h2] at h
          cases h
          exact ⟨(title, d), r', ⟨rfl, (readPairs_iff _ _ _ _ _).mp h1⟩, (ih r').mp h2, rfl⟩
    · rintro ⟨⟨t, d⟩, r', ⟨h0, h1⟩, h2, rfl⟩
      have h0 : title = t := h0
      subst h0
      rw [(readPairs_iff _ _ _ _ _).mpr h1, (ih r').mpr h2]

theorem split (files : List (List (List C) × C)) (strip : C → C) (key data : C) (r : List (C × List (C × C)))
    (h : List.Forall₂ (fun f q => f.2 = q.1 ∧ Series strip key data f.1 q.2) files r) :
    List.Forall₂ (fun f s => Series strip key data f.1 s) files (r.map Prod.snd) ∧ r.map Prod.fst = files.map Prod.snd := by
  induction h with
  | nil => exact ⟨List.Forall₂.nil, rfl⟩
  | cons h1 _ ih => exact ⟨List.Forall₂.cons h1.2 ih.1, by rw [List.map_cons, List.map_cons, ih.2, h1.1]⟩

theorem join (files : List (List (List C) × C)) (strip : C → C) (key data : C) (ser : List (List (C × C)))
    (h : List.Forall₂ (fun f s => Series strip key data f.1 s) files ser) :
    List.Forall₂ (fun f q => f.2 = q.1 ∧ Series strip key data f.1 q.2) files ((files.map Prod.snd).zip ser) := by
  induction h with
  | nil => exact List.Forall₂.nil
  | cons h1 _ ih => exact List.Forall₂.cons ⟨rfl, h1⟩ ih

/-- **C116.** Tables are put together if there is one, all have the two columns and the keys of all are the same in the same order, and only then. What
is written then: a row of titles, and for every key a row with the data of all tables at this key. -/
theorem C116_merge (strip : C → C) (key data : C) (files : List (List (List C) × C)) (out : List (List C)) :
    merge strip key data files = .ok out ↔
      ∃ (ser : List (List (C × C))) (keys : List C), files ≠ [] ∧ List.Forall₂ (fun f s => Series strip key data f.1 s) files ser ∧
        (∀ s ∈ ser, s.map Prod.fst = keys) ∧ out.length = keys.length + 1 ∧ out[0]? = some (key :: files.map Prod.snd) ∧
        ∀ (i : ℕ) (k : C), keys[i]? = some k → ∃ row, out[i + 1]? = some (k :: row) ∧ row.map some = ser.map fun s => (s[i]?).map Prod.snd := by
  cases files with
  | nil =>
    constructor
    · intro h; cases h
    · rintro ⟨ser, keys, h, -⟩; exact absurd rfl h
  | cons f files =>
    have all_iff : ∀ (fs : List (C × List (C × C))) (d : List (C × C)),
        (fs.all fun f => decide (f.2.map Prod.fst = d.map Prod.fst)) = true ↔ ∀ q ∈ fs, q.2.map Prod.fst = d.map Prod.fst := by
      intro fs d
      simp [List.all_eq_true]
    have key_row : ∀ (fs : List (C × List (C × C))) (d : List (C × C)), (∀ q ∈ fs, q.2.map Prod.fst = d.map Prod.fst) → ∀ i < d.length,
        (fs.filterMap fun f => (f.2[i]?).map Prod.snd).map some = fs.map fun q => (q.2[i]?).map Prod.snd := by
      intro fs d hq i hi
      induction fs with
      | nil => rfl
      | cons q fs ih =>
        have hl : q.2.length = d.length := by
          have := congrArg List.length (hq q List.mem_cons_self)
          simpa using this
        have e := List.getElem?_eq_getElem (l := q.2) (i := i) (by omega)
        rw [List.filterMap_cons, e]
        simp only [Option.map_some, List.map_cons]
        rw [ih fun q hq' => hq q (List.mem_cons_of_mem _ hq'), e]
        rfl
    have body : ∀ (t : C) (d : List (C × C)) (fs : List (C × List (C × C))), readFiles strip key data (f :: files) = .ok ((t, d) :: fs) →
        (∀ q ∈ fs, q.2.map Prod.fst = d.map Prod.fst) →
        merge strip key data (f :: files) = .ok ((key :: t :: fs.map Prod.fst) :: d.zipIdx.map fun p =>
          p.1.1 :: p.1.2 :: fs.filterMap fun f => (f.2[p.2]?).map Prod.snd) := by
      intro t d fs h1 h2
      rw [merge, h1]
      simp only
      rw [if_neg, if_neg]
      · rw [(all_iff fs d).mpr h2]; simp
      · have : (fs.all fun f => f.2.length == d.length) = true := by
          rw [List.all_eq_true]
          intro q hq
          have := congrArg List.length (h2 q hq)
          simpa using this
        rw [this]; simp
    constructor
    · intro h
      cases h1 : readFiles strip key data (f :: files) with
      | error e => rw [merge, h1] at h; cases h
      | ok r =>
        have hF := (readFiles_iff _ _ _ _ _).mp h1
        obtain ⟨⟨t, d⟩, fs, -, -, rfl⟩ := (List.forall₂_cons_left_iff).mp hF
        have hsp := split _ _ _ _ _ hF
        by_cases h2 : ∀ q ∈ fs, q.2.map Prod.fst = d.map Prod.fst
        · rw [body t d fs h1 h2] at h
          cases h
          refine ⟨_, d.map Prod.fst, by simp, hsp.1, ?_, by simp, ?_, ?_⟩
          · intro s hs
            obtain ⟨q, hq, rfl⟩ := List.mem_map.mp hs
            rcases List.mem_cons.mp hq with rfl | hq
            · rfl
            · exact h2 q hq
          · have := hsp.2
            rw [List.map_cons] at this
            rw [← this]
            rfl
          · intro i k hk
            have hi : i < d.length := by simpa using (List.getElem?_eq_some_iff.mp hk).1
            refine ⟨d[i].2 :: fs.filterMap fun f => (f.2[i]?).map Prod.snd, ?_, ?_⟩
            · simp only [List.getElem?_map, List.getElem?_eq_getElem hi, Option.map_some, Option.some.injEq] at hk
              simp [hi, hk]
            · rw [List.map_cons, key_row fs d h2 i hi, List.map_cons, List.map_cons, List.getElem?_eq_getElem hi, List.map_map]
              rfl
        · rw [merge, h1] at h
          simp only at h
          by_cases h3 : (fs.all fun f => f.2.length == d.length) = false
          · rw [if_pos h3] at h; cases h
          · rw [if_neg h3, if_pos (by rw [← Bool.not_eq_true, all_iff]; exact h2)] at h; cases h
    · rintro ⟨ser, keys, -, hF, hk, hl, h0, hrow⟩
      have hj := join _ _ _ _ _ hF
      have hr := (readFiles_iff _ _ _ _ _).mpr hj
      cases ser with
      | nil => cases hF
      | cons s ser =>
        simp only [List.map_cons, List.zip_cons_cons] at hr hj
        have hks := hk s List.mem_cons_self
        have hlen : ser.length = files.length := by
          have := hF.length_eq
          simpa using this.symm
        have h2 : ∀ q ∈ (files.map Prod.snd).zip ser, q.2.map Prod.fst = s.map Prod.fst := by
          intro q hq
          rw [hks]
          exact hk q.2 (List.mem_cons_of_mem _ (List.of_mem_zip (show (q.1, q.2) ∈ _ from hq)).2)
        rw [body _ _ _ hr h2]
        congr 1
        cases out with
        | nil => simp at hl
        | cons o out =>
          simp only [List.getElem?_cons_zero, Option.some.injEq] at h0
          subst h0
          have ht : ((files.map Prod.snd).zip ser).map Prod.fst = files.map Prod.snd := List.map_fst_zip (by simp [hlen])
          rw [ht, List.map_cons]
          congr 1
          have hsl : s.length = keys.length := by rw [← hks]; simp
          apply List.ext_getElem
          · simp at hl; simp [hsl, hl]
          · intro i a1 a2
            have hi : i < s.length := by simpa using a1
            have hki : keys[i]? = some s[i].1 := by rw [← hks]; simp [hi]
            obtain ⟨row, r1, r2⟩ := hrow i s[i].1 hki
            rw [List.getElem?_cons_succ, List.getElem?_eq_getElem a2, Option.some.injEq] at r1
            rw [r1]
            have hr2 := key_row _ s h2 i hi
            have e3 : ((files.map Prod.snd).zip ser).map (fun q => (q.2[i]?).map Prod.snd) = ser.map fun s => (s[i]?).map Prod.snd := by
              have : ((files.map Prod.snd).zip ser).map Prod.snd = ser := List.map_snd_zip (by simp [hlen])
              conv_rhs => rw [← this]
              rw [List.map_map]
              rfl
            have e4 : row = s[i].2 :: ((files.map Prod.snd).zip ser).filterMap fun f => (f.2[i]?).map Prod.snd := by
              have : row.map some = (s[i].2 :: ((files.map Prod.snd).zip ser).filterMap fun f => (f.2[i]?).map Prod.snd).map some := by
                rw [r2, List.map_cons, List.map_cons, hr2, e3, List.getElem?_eq_getElem hi]
                rfl
              exact List.map_injective_iff.mpr (Option.some_injective _) this
            rw [e4]
            simp

end Verif.Csv
