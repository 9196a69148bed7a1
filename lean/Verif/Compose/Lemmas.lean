import Verif.Compose.Spec
import Verif.Polygon.Props
import Mathlib.Tactic.Linarith
import Mathlib.Data.List.GetD

/-! # Helper lemmas: the arrays of the composite function seen point by point -/

set_option linter.unusedSectionVars false

namespace Verif.Compose

open Verif.Polygon

variable {K : Type*} [Field K] [LinearOrder K] [IsStrictOrderedRing K]

theorem assign_length {α : Type*} (l : List α) (inds : List ℕ) (f : ℕ → α) : (assign l inds f).length = l.length := by
  unfold assign
  induction inds generalizing l with
  | nil => rfl
  | cons i inds ih => rw [List.foldl_cons, ih, List.length_set]

theorem assign_get {α : Type*} (l : List α) (inds : List ℕ) (f : ℕ → α) {m : ℕ} (hm : m < l.length) :
    (assign l inds f)[m]? = if m ∈ inds then some (f m) else l[m]? := by
  unfold assign
  induction inds generalizing l with
  | nil => simp
  | cons i inds ih =>
    rw [List.foldl_cons, ih _ (by rw [List.length_set]; exact hm)]
    by_cases h1 : m ∈ inds
    · rw [if_pos h1, if_pos (List.mem_cons_of_mem _ h1)]
    · rw [if_neg h1]
      by_cases h2 : m = i
      · subst h2
        rw [if_pos List.mem_cons_self, List.getElem?_set_self hm]
      · rw [if_neg (by rw [List.mem_cons]; tauto), List.getElem?_set_ne (fun h => h2 h.symm)]

theorem assign_getD {α : Type*} (l : List α) (inds : List ℕ) (f : ℕ → α) {m : ℕ} (hm : m < l.length) (d : α) :
    (assign l inds f).getD m d = if m ∈ inds then f m else l.getD m d := by
  rw [List.getD_eq_getElem?_getD, assign_get l inds f hm]
  split_ifs
  · rfl
  · rw [List.getD_eq_getElem?_getD]

/-- The test used for regions. -/
def holdsB (sq : K → K) (s : Setup K) (r : Region K) (p : Pt K) : Bool :=
  match r with
  | .skip => false
  | .all => true
  | .polygon poly => insideFlag sq true poly (s.place p)

theorem holds_iff {sq : K → K} {s : Setup K} {r : Region K} {p : Pt K} : holdsB sq s r p = true ↔ Holds sq s r p := by
  cases r with
  | skip => simp [holdsB, Holds]
  | all => simp [holdsB, Holds]
  | polygon poly =>
    show insideFlag sq true poly (s.place p) = true ↔ isInsidePolygon sq true (s.place p) poly = some true
    rw [isInside_eq, Option.some.injEq]

/-- Selecting by the polygon test within a list of indices. -/
theorem mem_inside (sq : K → K) (l : List ℕ) (g : ℕ → Pt K) (poly : List (Pt K)) (m : ℕ) :
    m ∈ (insidePolygon sq true (l.map g) poly).map (fun j => l.getD j 0) ↔ m ∈ l ∧ insideFlag sq true poly (g m) = true := by
  rw [List.mem_map, separate_in]
  constructor
  · rintro ⟨j, hj, rfl⟩
    rw [List.mem_filter, List.mem_range, List.length_map] at hj
    obtain ⟨hj, hf⟩ := hj
    rw [List.getD_eq_getElem _ _ hj]
    refine ⟨List.getElem_mem hj, ?_⟩
    unfold flagAt at hf
    rw [List.getElem?_map, List.getElem?_eq_getElem hj] at hf
    exact hf
  · rintro ⟨hm, hf⟩
    obtain ⟨j, hj, rfl⟩ := List.mem_iff_getElem.1 hm
    refine ⟨j, ?_, List.getD_eq_getElem _ _ hj⟩
    rw [List.mem_filter, List.mem_range, List.length_map]
    refine ⟨hj, ?_⟩
    unfold flagAt
    rw [List.getElem?_map, List.getElem?_eq_getElem hj]
    exact hf

theorem mem_select {sq : K → K} {s : Setup K} {pts : List (Pt K)} {st : State K} {r : Region K} {m : ℕ} :
    m ∈ select sq s pts st r ↔ m < pts.length ∧ st.isSet.getD m true = false ∧ holdsB sq s r (pts.getD m ⟨0, 0⟩) = true := by
  cases r with
  | skip => simp [select, holdsB]
  | all => simp [select, holdsB]
  | polygon poly =>
    show m ∈ (insidePolygon sq true (((List.range pts.length).filter fun i => !st.isSet.getD i true).map fun i => s.place (pts.getD i ⟨0, 0⟩)) poly).map _ ↔ _
    rw [mem_inside, List.mem_filter, List.mem_range]
    simp [holdsB, and_assoc]

/-- State of one point. -/
structure One (K : Type*) where
  val : Option K
  isSet : Bool
  ever : Bool

/-- State of point `m`. -/
def State.one (st : State K) (m : ℕ) : One K := ⟨st.val.getD m none, st.isSet.getD m true, st.ever.getD m false⟩

/-- The range of pair `i` applied. -/
def clipAt (s : Setup K) (i : ℕ) (u : K) : K :=
  match s.clip with
  | none => u
  | some c => clipTo (c.getD i (0, 0)) u

/-- What one pair does to one point. -/
def stepOne (sq : K → K) (query : Query K) (s : Setup K) (p : Pt K) (i : ℕ) (q : Region K × Source K) (o : One K) : Option (One K) :=
  if o.isSet = false ∧ holdsB sq s q.1 p = true then
    match evaluate query s q.2 p with
    | none => none
    | some (some u) => some ⟨some (clipAt s i u), true, o.ever⟩
    | some none => if s.treatment = .fallThrough then some ⟨none, false, true⟩ else none
  else some o

/-- The main loop at one point. -/
def loopOne (sq : K → K) (query : Query K) (s : Setup K) (p : Pt K) : ℕ → List (Region K × Source K) → One K → Option (One K)
  | _, [], o => some o
  | i, q :: rest, o => (stepOne sq query s p i q o).bind (loopOne sq query s p (i + 1) rest)

/-- All three arrays have one entry per point. -/
def Sized (st : State K) (n : ℕ) : Prop := st.val.length = n ∧ st.isSet.length = n ∧ st.ever.length = n

/-- The step of the arrays is that of the points, all succeeding or one failing. -/
theorem step_one {sq : K → K} {query : Query K} {s : Setup K} {pts : List (Pt K)} (i : ℕ) (q : Region K × Source K) {st : State K} (hs : Sized st pts.length) :
    (∃ st', step sq query s pts i q st = some st' ∧ Sized st' pts.length ∧
      ∀ m < pts.length, stepOne sq query s (pts.getD m ⟨0, 0⟩) i q (st.one m) = some (st'.one m)) ∨
    (step sq query s pts i q st = none ∧ ∃ m < pts.length, stepOne sq query s (pts.getD m ⟨0, 0⟩) i q (st.one m) = none) := by
  obtain ⟨h1, h2, h3⟩ := hs
  have hmem : ∀ m < pts.length, m ∈ select sq s pts st q.1 ↔ ((st.one m).isSet = false ∧ holdsB sq s q.1 (pts.getD m ⟨0, 0⟩) = true) := by
    intro m hm
    rw [mem_select]
    constructor
    · exact fun h => h.2
    · exact fun h => ⟨hm, h⟩
  have hout : ∀ m < pts.length, m ∉ select sq s pts st q.1 → stepOne sq query s (pts.getD m ⟨0, 0⟩) i q (st.one m) = some (st.one m) := by
    intro m hm hn
    unfold stepOne
    rw [if_neg (fun h => hn ((hmem m hm).2 h))]
  have hin : ∀ m < pts.length, m ∈ select sq s pts st q.1 → stepOne sq query s (pts.getD m ⟨0, 0⟩) i q (st.one m) =
      match evaluate query s q.2 (pts.getD m ⟨0, 0⟩) with
      | none => none
      | some (some u) => some ⟨some (clipAt s i u), true, (st.one m).ever⟩
      | some none => if s.treatment = .fallThrough then some ⟨none, false, true⟩ else none := by
    intro m hm hn
    conv_lhs => unfold stepOne
    rw [if_pos ((hmem m hm).1 hn)]
  unfold step
  simp only
  set inds := select sq s pts st q.1 with hinds
  have hlt : ∀ m ∈ inds, m < pts.length := fun m hm => (mem_select.1 hm).1
  by_cases he : inds.isEmpty = true
  · rw [if_pos he]
    left
    refine ⟨st, rfl, ⟨h1, h2, h3⟩, fun m hm => hout m hm ?_⟩
    rw [List.isEmpty_iff.1 he]; simp
  rw [if_neg he]
  by_cases hex : (inds.any fun j => (evaluate query s q.2 (pts.getD j ⟨0, 0⟩)).isNone) = true
  · rw [if_pos hex]
    right
    refine ⟨rfl, ?_⟩
    obtain ⟨m, hm, hn⟩ := List.any_eq_true.1 hex
    refine ⟨m, hlt m hm, ?_⟩
    rw [hin m (hlt m hm) hm, Option.isNone_iff_eq_none.1 hn]
  rw [if_neg hex]
  have hev : ∀ m ∈ inds, ∃ w, evaluate query s q.2 (pts.getD m ⟨0, 0⟩) = some w := by
    intro m hm
    by_contra hn
    apply hex
    rw [List.any_eq_true]
    refine ⟨m, hm, ?_⟩
    cases he : evaluate query s q.2 (pts.getD m ⟨0, 0⟩) with
    | none => rfl
    | some w => exact absurd ⟨w, he⟩ hn
  set v := fun j => (evaluate query s q.2 (pts.getD j ⟨0, 0⟩)).getD none with hv
  have hval : ∀ m ∈ inds, evaluate query s q.2 (pts.getD m ⟨0, 0⟩) = some (v m) := by
    intro m hm
    obtain ⟨w, hw⟩ := hev m hm
    rw [hv]
    simp only
    rw [hw]
    rfl
  have hgood : ∀ m, m ∈ (inds.filter fun j => (v j).isSome) ↔ m ∈ inds ∧ (v m).isSome = true := fun m => List.mem_filter
  have hnan : ∀ m, m ∈ (inds.filter fun j => (v j).isNone) ↔ m ∈ inds ∧ (v m).isNone = true := fun m => List.mem_filter
  -- the finished state
  set finish : State K := ⟨match s.clip with
          | none => assign st.val inds v
          | some c => assign (assign st.val inds v) (inds.filter fun j => (v j).isSome) fun j => (v j).map (clipTo (c.getD i (0, 0))),
          assign st.isSet (inds.filter fun j => (v j).isSome) fun _ => true, assign st.ever (inds.filter fun j => (v j).isNone) fun _ => true⟩ with hfin
  have hfsize : Sized finish pts.length := by
    refine ⟨?_, ?_, ?_⟩
    · rw [hfin]
      simp only
      cases s.clip with
      | none => simp only; rw [assign_length, h1]
      | some c => simp only; rw [assign_length, assign_length, h1]
    · rw [hfin]; simp only; rw [assign_length, h2]
    · rw [hfin]; simp only; rw [assign_length, h3]
  have hfval : ∀ m < pts.length, finish.val.getD m none = if m ∈ inds then (v m).map (clipAt s i) else st.val.getD m none := by
    intro m hm
    rw [hfin]
    simp only
    unfold clipAt
    cases s.clip with
    | none =>
      simp only
      rw [assign_getD _ _ _ (by rw [h1]; exact hm)]
      simp
    | some c =>
      simp only
      rw [assign_getD _ _ _ (by rw [assign_length, h1]; exact hm), assign_getD _ _ _ (by rw [h1]; exact hm)]
      by_cases hmi : m ∈ inds
      · rw [if_pos hmi, if_pos hmi]
        cases hvm : v m with
        | none => rw [if_neg (by rw [hgood]; rw [hvm]; simp)]; rfl
        | some u => rw [if_pos (by rw [hgood]; rw [hvm]; exact ⟨hmi, rfl⟩)]
      · rw [if_neg hmi, if_neg hmi, if_neg (fun h => hmi ((hgood m).1 h).1)]
  have hfset : ∀ m < pts.length, finish.isSet.getD m true = if m ∈ inds ∧ (v m).isSome = true then true else st.isSet.getD m true := by
    intro m hm
    rw [hfin]
    simp only
    rw [assign_getD _ _ _ (by rw [h2]; exact hm)]
    simp only [hgood]
  have hfever : ∀ m < pts.length, finish.ever.getD m false = if m ∈ inds ∧ (v m).isNone = true then true else st.ever.getD m false := by
    intro m hm
    rw [hfin]
    simp only
    rw [assign_getD _ _ _ (by rw [h3]; exact hm)]
    simp only [hnan]
  -- the finished state is the right one
  have hright : (s.treatment = .fallThrough ∨ (inds.filter fun j => (v j).isNone).isEmpty = true) →
      ∀ m < pts.length, stepOne sq query s (pts.getD m ⟨0, 0⟩) i q (st.one m) = some (finish.one m) := by
    intro hor m hm
    have hone : finish.one m = ⟨finish.val.getD m none, finish.isSet.getD m true, finish.ever.getD m false⟩ := rfl
    rw [hone, hfval m hm, hfset m hm, hfever m hm]
    by_cases hmi : m ∈ inds
    · rw [hin m hm hmi, hval m hmi]
      cases hvm : v m with
      | none =>
        have ht : s.treatment = .fallThrough := by
          rcases hor with h | h
          · exact h
          · exfalso
            have := (hnan m).2 ⟨hmi, by rw [hvm]; rfl⟩
            rw [List.isEmpty_iff.1 h] at this
            simp at this
        have hset : st.isSet.getD m true = false := ((hmem m hm).1 hmi).1
        rw [List.getD_eq_getElem?_getD] at hset
        simp [ht, hmi, hset]
      | some u => simp [hmi, State.one]
    · rw [hout m hm hmi]
      simp [hmi, State.one]
  by_cases hne : (inds.filter fun j => (v j).isNone).isEmpty = true
  · rw [if_pos hne]
    exact Or.inl ⟨finish, rfl, hfsize, hright (Or.inr hne)⟩
  rw [if_neg hne]
  have hbad : s.treatment ≠ .fallThrough → ∃ m < pts.length, stepOne sq query s (pts.getD m ⟨0, 0⟩) i q (st.one m) = none := by
    intro ht
    rw [List.isEmpty_iff] at hne
    obtain ⟨m, hm⟩ := List.exists_mem_of_ne_nil _ hne
    obtain ⟨hmi, hmn⟩ := (hnan m).1 hm
    refine ⟨m, hlt m hmi, ?_⟩
    rw [hin m (hlt m hmi) hmi, hval m hmi, Option.isNone_iff_eq_none.1 hmn]
    simp [ht]
  cases ht : s.treatment with
  | exception => exact Or.inr ⟨rfl, hbad (by rw [ht]; simp)⟩
  | other => exact Or.inr ⟨rfl, hbad (by rw [ht]; simp)⟩
  | fallThrough =>
    simp only
    by_cases hge : (inds.filter fun j => (v j).isSome).isEmpty = true
    · rw [if_pos hge]
      left
      refine ⟨_, rfl, ⟨?_, h2, ?_⟩, ?_⟩
      · simp only; rw [assign_length, h1]
      · simp only; rw [assign_length, h3]
      · intro m hm
        rw [hright (Or.inl ht) m hm]
        congr 1
        unfold State.one
        rw [hfval m hm, hfset m hm, hfever m hm]
        simp only
        rw [assign_getD _ _ _ (by rw [h1]; exact hm)]
        by_cases hmi : m ∈ inds
        · cases hvm : v m with
          | none => simp [hmi]
          | some u =>
            exfalso
            have := (hgood m).2 ⟨hmi, by rw [hvm]; rfl⟩
            rw [List.isEmpty_iff.1 hge] at this
            simp at this
        · simp [hmi]
    · rw [if_neg hge]
      exact Or.inl ⟨finish, rfl, hfsize, hright (Or.inl ht)⟩

/-- The loop over the arrays is that of the points. -/
theorem loop_one {sq : K → K} {query : Query K} {s : Setup K} {pts : List (Pt K)} (l : List (Region K × Source K)) (i : ℕ) {st : State K} (hs : Sized st pts.length) :
    (∃ st', loop sq query s pts i l st = some st' ∧ Sized st' pts.length ∧
      ∀ m < pts.length, loopOne sq query s (pts.getD m ⟨0, 0⟩) i l (st.one m) = some (st'.one m)) ∨
    (loop sq query s pts i l st = none ∧ ∃ m < pts.length, loopOne sq query s (pts.getD m ⟨0, 0⟩) i l (st.one m) = none) := by
  induction l generalizing i st with
  | nil => exact Or.inl ⟨st, rfl, hs, fun m hm => rfl⟩
  | cons q l ih =>
    rcases step_one (sq := sq) (query := query) (s := s) i q hs with ⟨st', e, hs', h⟩ | ⟨e, m, hm, h⟩
    · rcases ih (i + 1) hs' with ⟨st'', e', hs'', h'⟩ | ⟨e', m, hm, h'⟩
      · refine Or.inl ⟨st'', ?_, hs'', fun m hm => ?_⟩
        · unfold loop; rw [e]; exact e'
        · unfold loopOne; rw [h m hm]; exact h' m hm
      · refine Or.inr ⟨?_, m, hm, ?_⟩
        · unfold loop; rw [e]; exact e'
        · unfold loopOne; rw [h m hm]; exact h'
    · refine Or.inr ⟨?_, m, hm, ?_⟩
      · unfold loop; rw [e]; rfl
      · unfold loopOne; rw [h]; rfl

/-! ## One point -/

theorem says_iff {query : Query K} {s : Setup K} {p : Pt K} {src : Source K} {v : Option K} : Says query s p src v ↔ evaluate query s src p = some v := by
  constructor
  · intro h
    cases h with
    | call f => rfl
    | const c => simp [evaluate]
    | points d => rfl
    | raster f v h => exact h
  · intro h
    cases src with
    | call f => cases h; exact .call f
    | const c => simp only [evaluate, mul_one, Option.some.injEq] at h; subst h; exact .const c
    | points d => cases h; exact .points d
    | raster f => exact .raster f v h
    | bad => simp [evaluate] at h

theorem raises_iff {query : Query K} {s : Setup K} {p : Pt K} {src : Source K} : Raises s p src ↔ evaluate query s src p = none := by
  constructor
  · intro h
    cases h with
    | raster f h => exact h
    | bad => rfl
  · intro h
    cases src with
    | call f => simp [evaluate] at h
    | const c => simp [evaluate] at h
    | points d => simp [evaluate] at h
    | raster f => exact .raster f h
    | bad => exact .bad

theorem loopOne_set {sq : K → K} {query : Query K} {s : Setup K} {p : Pt K} (l : List (Region K × Source K)) (i : ℕ) {o : One K} (h : o.isSet = true) :
    loopOne sq query s p i l o = some o := by
  induction l generalizing i with
  | nil => rfl
  | cons q l ih =>
    unfold loopOne stepOne
    rw [if_neg (by rw [h]; simp)]
    exact ih (i + 1)

/-- Pair `k` of the list `l` gets its turn. -/
def TurnIn (sq : K → K) (query : Query K) (s : Setup K) (p : Pt K) (l : List (Region K × Source K)) (k : ℕ) (src : Source K) : Prop :=
  ∃ r, l[k]? = some (r, src) ∧ Holds sq s r p ∧ ∀ j < k, ∀ r' src', l[j]? = some (r', src') → Holds sq s r' p → Says query s p src' none

theorem turnIn_succ {sq : K → K} {query : Query K} {s : Setup K} {p : Pt K} {q : Region K × Source K} {l : List (Region K × Source K)} {k : ℕ} {src : Source K}
    (hq : Holds sq s q.1 p → Says query s p q.2 none) : TurnIn sq query s p (q :: l) (k + 1) src ↔ TurnIn sq query s p l k src := by
  constructor
  · rintro ⟨r, h1, h2, h3⟩
    refine ⟨r, by simpa using h1, h2, fun j hj r' src' h => h3 (j + 1) (by omega) r' src' (by simpa using h)⟩
  · rintro ⟨r, h1, h2, h3⟩
    refine ⟨r, by simpa using h1, h2, ?_⟩
    intro j hj r' src' h hh
    cases j with
    | zero => simp at h; subst h; exact hq hh
    | succ j => exact h3 j (by omega) r' src' (by simpa using h) hh

theorem turnIn_zero {sq : K → K} {query : Query K} {s : Setup K} {p : Pt K} {q : Region K × Source K} {l : List (Region K × Source K)} {src : Source K} :
    TurnIn sq query s p (q :: l) 0 src ↔ q.2 = src ∧ Holds sq s q.1 p := by
  constructor
  · rintro ⟨r, h1, h2, -⟩
    simp at h1
    subst h1
    exact ⟨rfl, h2⟩
  · rintro ⟨rfl, h⟩
    exact ⟨q.1, rfl, h, fun j hj => absurd hj (by omega)⟩

/-- The first pair of the list that holds has no number. -/
def FirstIn (sq : K → K) (query : Query K) (s : Setup K) (p : Pt K) (l : List (Region K × Source K)) : Prop :=
  ∃ (i : ℕ) (r : Region K) (src : Source K), l[i]? = some (r, src) ∧ Holds sq s r p ∧ Says query s p src none ∧ ∀ j < i, ∀ r' src', l[j]? = some (r', src') → ¬ Holds sq s r' p

theorem firstIn_cons {sq : K → K} {query : Query K} {s : Setup K} {p : Pt K} {q : Region K × Source K} {l : List (Region K × Source K)} :
    FirstIn sq query s p (q :: l) ↔ (Holds sq s q.1 p ∧ Says query s p q.2 none) ∨ (¬ Holds sq s q.1 p ∧ FirstIn sq query s p l) := by
  constructor
  · rintro ⟨i, r, src, h1, h2, h3, h4⟩
    cases i with
    | zero => simp at h1; subst h1; exact Or.inl ⟨h2, h3⟩
    | succ i =>
      right
      exact ⟨h4 0 (by omega) q.1 q.2 rfl, i, r, src, by simpa using h1, h2, h3, fun j hj r' src' h => h4 (j + 1) (by omega) r' src' (by simpa using h)⟩
  · rintro (⟨h1, h2⟩ | ⟨h1, i, r, src, e, h2, h3, h4⟩)
    · exact ⟨0, q.1, q.2, rfl, h1, h2, fun j hj => absurd hj (by omega)⟩
    · refine ⟨i + 1, r, src, by simpa using e, h2, h3, ?_⟩
      intro j hj r' src' h
      cases j with
      | zero => simp at h; subst h; exact h1
      | succ j => exact h4 j (by omega) r' src' (by simpa using h)

/-- What the loop does at a point that starts unset. -/
theorem loopOne_spec {sq : K → K} {query : Query K} {s : Setup K} {p : Pt K} (l : List (Region K × Source K)) (i : ℕ) (e : Bool) :
    match loopOne sq query s p i l ⟨none, false, e⟩ with
    | none => ∃ k src, TurnIn sq query s p l k src ∧ (Raises s p src ∨ (s.treatment ≠ .fallThrough ∧ Says query s p src none))
    | some o =>
      (∀ k src, TurnIn sq query s p l k src → ¬ Raises s p src ∧ (s.treatment ≠ .fallThrough → ¬ Says query s p src none)) ∧
      (o.isSet = true → ∃ k src u, TurnIn sq query s p l k src ∧ Says query s p src (some u) ∧ o.val = some (clipAt s (i + k) u)) ∧
      (o.isSet = false → o.val = none ∧ ∀ k src u, TurnIn sq query s p l k src → ¬ Says query s p src (some u)) ∧
      (o.ever = true ↔ e = true ∨ FirstIn sq query s p l) := by
  induction l generalizing i e with
  | nil =>
    refine ⟨?_, by simp, fun _ => ⟨rfl, ?_⟩, ?_⟩
    · rintro k src ⟨r, h, -⟩; simp at h
    · rintro k src u ⟨r, h, -⟩; simp at h
    · simp only [iff_self_or]
      rintro ⟨i, r, src, h, -⟩
      simp at h
  | cons q l ih =>
    unfold loopOne stepOne
    by_cases hq : holdsB sq s q.1 p = true
    · have hh : Holds sq s q.1 p := holds_iff.1 hq
      rw [if_pos ⟨rfl, hq⟩]
      cases hev : evaluate query s q.2 p with
      | none => exact ⟨0, q.2, turnIn_zero.2 ⟨rfl, hh⟩, Or.inl (raises_iff.2 hev)⟩
      | some w =>
        cases w with
        | some u =>
          simp only [Option.bind_some]
          rw [loopOne_set _ _ rfl]
          have hsay : Says query s p q.2 (some u) := says_iff.2 hev
          have honly : ∀ k src, TurnIn sq query s p (q :: l) k src → k = 0 ∧ src = q.2 := by
            intro k src ht
            cases k with
            | zero => exact ⟨rfl, (turnIn_zero.1 ht).1.symm⟩
            | succ k =>
              exfalso
              obtain ⟨r, _, _, h3⟩ := ht
              have := h3 0 (by omega) q.1 q.2 rfl hh
              rw [says_iff, hev] at this
              simp at this
          refine ⟨?_, fun _ => ⟨0, q.2, u, turnIn_zero.2 ⟨rfl, hh⟩, hsay, rfl⟩, by simp, ?_⟩
          · intro k src ht
            obtain ⟨-, rfl⟩ := honly k src ht
            refine ⟨fun h => ?_, fun _ h => ?_⟩
            · rw [raises_iff (query := query), hev] at h; simp at h
            · rw [says_iff, hev] at h; simp at h
          · simp only [iff_self_or]
            rw [firstIn_cons]
            rintro (⟨_, h⟩ | ⟨h, _⟩)
            · rw [says_iff, hev] at h; simp at h
            · exact absurd hh h
        | none =>
          have hsay : Says query s p q.2 none := says_iff.2 hev
          simp only
          by_cases ht : s.treatment = .fallThrough
          · rw [if_pos ht]
            simp only [Option.bind_some]
            have := ih (i + 1) true
            cases hl : loopOne sq query s p (i + 1) l ⟨none, false, true⟩ with
            | none =>
              rw [hl] at this
              obtain ⟨k, src, h1, h2⟩ := this
              exact ⟨k + 1, src, (turnIn_succ fun _ => hsay).2 h1, h2⟩
            | some o =>
              rw [hl] at this
              obtain ⟨a, b, c, d⟩ := this
              refine ⟨?_, ?_, ?_, ?_⟩
              · intro k src hk
                cases k with
                | zero =>
                  obtain ⟨rfl, -⟩ := turnIn_zero.1 hk
                  refine ⟨fun h => ?_, fun h => absurd ht h⟩
                  rw [raises_iff (query := query), hev] at h; simp at h
                | succ k => exact a k src ((turnIn_succ fun _ => hsay).1 hk)
              · intro ho
                obtain ⟨k, src, u, h1, h2, h3⟩ := b ho
                exact ⟨k + 1, src, u, (turnIn_succ fun _ => hsay).2 h1, h2, by rw [h3]; congr 2; omega⟩
              · intro ho
                obtain ⟨c1, c2⟩ := c ho
                refine ⟨c1, fun k src u hk => ?_⟩
                cases k with
                | zero =>
                  obtain ⟨rfl, -⟩ := turnIn_zero.1 hk
                  intro h
                  rw [says_iff, hev] at h; simp at h
                | succ k => exact c2 k src u ((turnIn_succ fun _ => hsay).1 hk)
              · rw [d, firstIn_cons]
                simp [hh, hsay]
          · rw [if_neg ht]
            exact ⟨0, q.2, turnIn_zero.2 ⟨rfl, hh⟩, Or.inr ⟨ht, hsay⟩⟩
    · have hh : ¬ Holds sq s q.1 p := fun h => hq (holds_iff.2 h)
      rw [if_neg (fun h => hq h.2)]
      simp only [Option.bind_some]
      have := ih (i + 1) e
      cases hl : loopOne sq query s p (i + 1) l ⟨none, false, e⟩ with
      | none =>
        rw [hl] at this
        obtain ⟨k, src, h1, h2⟩ := this
        exact ⟨k + 1, src, (turnIn_succ fun h => absurd h hh).2 h1, h2⟩
      | some o =>
        rw [hl] at this
        obtain ⟨a, b, c, d⟩ := this
        refine ⟨?_, ?_, ?_, ?_⟩
        · intro k src hk
          cases k with
          | zero => exact absurd (turnIn_zero.1 hk).2 hh
          | succ k => exact a k src ((turnIn_succ fun h => absurd h hh).1 hk)
        · intro ho
          obtain ⟨k, src, u, h1, h2, h3⟩ := b ho
          exact ⟨k + 1, src, u, (turnIn_succ fun h => absurd h hh).2 h1, h2, by rw [h3]; congr 2; omega⟩
        · intro ho
          obtain ⟨c1, c2⟩ := c ho
          refine ⟨c1, fun k src u hk => ?_⟩
          cases k with
          | zero => exact absurd (turnIn_zero.1 hk).2 hh
          | succ k => exact c2 k src u ((turnIn_succ fun h => absurd h hh).1 hk)
        · rw [d, firstIn_cons]
          simp [hh]

end Verif.Compose
