import Verif.Sww.SpecMerge
import Mathlib.Data.List.GetD
import Mathlib.Tactic.FinCases

set_option linter.unusedSectionVars false

namespace Verif.Sww

section Arrays

variable {α : Type*}

theorem setAll_length : ∀ (w : List (ℕ × α)) (a : List α), (setAll a w).length = a.length := by
  intro w
  induction w with
  | nil => intro a; rfl
  | cons p w ih => intro a; simp only [setAll, List.foldl_cons] at ih ⊢; rw [ih]; simp

theorem setAll_append (a : List α) (u w : List (ℕ × α)) : setAll a (u ++ w) = setAll (setAll a u) w := by
  simp [setAll]

theorem setAll_other : ∀ (w : List (ℕ × α)) (a : List α) (j : ℕ), (∀ p ∈ w, p.1 ≠ j) → (setAll a w)[j]? = a[j]? := by
  intro w
  induction w with
  | nil => intro a j _; rfl
  | cons p w ih =>
    intro a j h
    have := ih (a.set p.1 p.2) j (fun q hq => h q (by simp [hq]))
    simp only [setAll, List.foldl_cons] at this ⊢
    rw [this, List.getElem?_set_ne (h p (by simp))]

theorem setAll_agree : ∀ (w : List (ℕ × α)) (a : List α) (j : ℕ) (v : α), j < a.length → (∀ p ∈ w, p.1 = j → p.2 = v) →
    (∃ p ∈ w, p.1 = j) → (setAll a w)[j]? = some v := by
  intro w
  induction w with
  | nil => intro a j v _ _ h; simp at h
  | cons p w ih =>
    intro a j v hj hall hex
    by_cases hw : ∃ q ∈ w, q.1 = j
    · have := ih (a.set p.1 p.2) j v (by simpa using hj) (fun q hq => hall q (by simp [hq])) hw
      simpa [setAll] using this
    · push Not at hw
      have hp : p.1 = j := by
        obtain ⟨q, hq, hqj⟩ := hex
        rcases List.mem_cons.mp hq with rfl | hq
        · exact hqj
        · exact absurd hqj (hw q hq)
      have := setAll_other w (a.set p.1 p.2) j hw
      have e : setAll a (p :: w) = setAll (a.set p.1 p.2) w := by simp [setAll]
      rw [e, this, hall p (by simp) hp, hp]
      simp [hj]

/-- What a file writes. -/
def writesOf (o : Option (List ℕ × List α)) : List (ℕ × α) :=
  match o with
  | some (idx, v) => idx.zip v
  | none => []

theorem scatterAll_eq {P : Type*} (f : P → Option (List ℕ × List α)) :
    ∀ (ps : List P) (g h : List α), scatterAll f ps g = some h → h = setAll g (ps.flatMap fun p => writesOf (f p)) := by
  intro ps
  induction ps with
  | nil => intro g h hh; simp [scatterAll] at hh; simp [setAll, hh]
  | cons p ps ih =>
    intro g h hh
    rw [scatterAll] at hh
    rcases hf : f p with _ | ⟨idx, v⟩
    · simp [hf] at hh
    · simp only [hf] at hh
      rcases hs : scatter g idx v with _ | k
      · simp [hs] at hh
      · simp only [hs] at hh
        rw [ih k h hh, List.flatMap_cons, setAll_append, hf]
        unfold scatter at hs
        split at hs
        · simp at hs; rw [← hs]; rfl
        · simp at hs

theorem scatterAll_ok {P : Type*} (f : P → Option (List ℕ × List α)) :
    ∀ (ps : List P) (g : List α), (∀ p ∈ ps, ∃ idx v, f p = some (idx, v) ∧ idx.length = v.length ∧ ∀ i ∈ idx, i < g.length) →
      ∃ h, scatterAll f ps g = some h ∧ h.length = g.length := by
  intro ps
  induction ps with
  | nil => intro g _; exact ⟨g, rfl, rfl⟩
  | cons p ps ih =>
    intro g hp
    obtain ⟨idx, v, hf, hl, hr⟩ := hp p (by simp)
    have hs : scatter g idx v = some (setAll g (idx.zip v)) := by rw [scatter, if_pos ⟨hl, hr⟩]
    obtain ⟨h, hh, hlen⟩ := ih (setAll g (idx.zip v)) (fun q hq => by
      obtain ⟨idx', v', h1, h2, h3⟩ := hp q (by simp [hq])
      exact ⟨idx', v', h1, h2, fun i hi => by rw [setAll_length]; exact h3 i hi⟩)
    refine ⟨h, ?_, by rw [hlen, setAll_length]⟩
    rw [scatterAll, hf]
    simp only [hs, hh]

theorem scatterAll_congr {P : Type*} (f f' : P → Option (List ℕ × List α)) : ∀ (ps : List P) (g : List α),
    (∀ p ∈ ps, f p = f' p) → scatterAll f ps g = scatterAll f' ps g := by
  intro ps
  induction ps with
  | nil => intro g _; rfl
  | cons p ps ih =>
    intro g h
    rw [scatterAll, scatterAll, h p (by simp)]
    rcases f' p with _ | ⟨idx, v⟩
    · rfl
    · simp only
      rcases scatter g idx v with _ | k
      · rfl
      · exact ih k (fun q hq => h q (by simp [hq]))

/-- Put together from agreeing pieces. -/
theorem scatterAll_get {P : Type*} (f : P → Option (List ℕ × List α)) (ps : List P) (g h : List α) (hh : scatterAll f ps g = some h)
    (j : ℕ) (hj : j < g.length) (v : α) (hall : ∀ p ∈ ps, ∀ w ∈ writesOf (f p), w.1 = j → w.2 = v)
    (hex : ∃ p ∈ ps, ∃ w ∈ writesOf (f p), w.1 = j) : h[j]? = some v := by
  rw [scatterAll_eq f ps g h hh]
  refine setAll_agree _ _ j v hj ?_ ?_
  · intro w hw hwj
    obtain ⟨p, hp, hpw⟩ := List.mem_flatMap.mp hw
    exact hall p hp w hpw hwj
  · obtain ⟨p, hp, w, hw, hwj⟩ := hex
    exact ⟨w, List.mem_flatMap.mpr ⟨p, hp, hw⟩, hwj⟩

/-- The last piece wins. -/
theorem scatterAll_last {P : Type*} (f : P → Option (List ℕ × List α)) (A B : List P) (p : P) (g h : List α)
    (hh : scatterAll f (A ++ p :: B) g = some h) (j : ℕ) (hj : j < g.length) (v : α) (hall : ∀ w ∈ writesOf (f p), w.1 = j → w.2 = v)
    (hex : ∃ w ∈ writesOf (f p), w.1 = j) (hB : ∀ q ∈ B, ∀ w ∈ writesOf (f q), w.1 ≠ j) : h[j]? = some v := by
  rw [scatterAll_eq f _ g h hh, List.flatMap_append, List.flatMap_cons, setAll_append, setAll_append]
  rw [setAll_other _ _ _ (fun w hw => by
    obtain ⟨q, hq, hqw⟩ := List.mem_flatMap.mp hw
    exact hB q hq w hqw)]
  exact setAll_agree _ _ j v (by rw [setAll_length]; exact hj) hall hex

theorem gather_ok (a : List α) (d : α) : ∀ (idx : List ℕ), (∀ i ∈ idx, i < a.length) →
    gather a idx = some (idx.map fun i => a.getD i d) := by
  intro idx
  induction idx with
  | nil => intro _; rfl
  | cons i idx ih =>
    intro h
    have h1 := ih (fun j hj => h j (by simp [hj]))
    simp only [gather] at h1 ⊢
    rw [List.mapM_cons, h1]
    have hi := h i (by simp)
    simp [hi]

theorem compress_eq (flags : List ℤ) (a : List α) (d : α) (h : a.length = flags.length) :
    compress flags a = ((List.range flags.length).filter fun i => decide (flags.getD i 0 ≠ 0)).map fun i => a.getD i d := by
  have hz : flags.zip a = (List.range flags.length).map fun i => (flags.getD i 0, a.getD i d) := by
    apply List.ext_getElem
    · simp [h]
    · intro i h1 h2
      have hi : i < flags.length := by simpa using h2
      simp [hi, h]
  rw [compress, hz, List.filterMap_map]
  generalize List.range flags.length = l
  induction l with
  | nil => rfl
  | cons i l ih =>
    rw [List.filterMap_cons, ih, List.filter_cons]
    by_cases hf : flags[i]?.getD 0 = 0
    · simp [hf]
    · simp [hf]

theorem corners_map (f : ℕ → α) (ids : List ℕ) :
    (corners ids).map f = ids.flatMap fun i => [f (3 * i), f (3 * i + 1), f (3 * i + 2)] := by
  simp [corners, List.map_flatMap]

theorem corners_zip (g : ℕ → ℕ) (f : ℕ → α) : ∀ ids : List ℕ,
    (corners (ids.map g)).zip ((corners ids).map f) =
      ids.flatMap fun i => [(3 * g i, f (3 * i)), (3 * g i + 1, f (3 * i + 1)), (3 * g i + 2, f (3 * i + 2))] := by
  intro ids
  induction ids with
  | nil => rfl
  | cons i ids ih =>
    simp only [corners, List.map_cons, List.flatMap_cons, List.cons_append, List.nil_append, List.zip_cons_cons] at ih ⊢
    rw [ih]

theorem mem_corners (ids : List ℕ) (j : ℕ) : j ∈ corners ids ↔ ∃ i ∈ ids, ∃ k : Fin 3, j = 3 * i + k := by
  simp only [corners, List.mem_flatMap, List.mem_cons, List.not_mem_nil, or_false]
  constructor
  · rintro ⟨i, hi, h | h | h⟩
    · exact ⟨i, hi, 0, by simpa using h⟩
    · exact ⟨i, hi, 1, by simpa using h⟩
    · exact ⟨i, hi, 2, by simpa using h⟩
  · rintro ⟨i, hi, k, h⟩
    refine ⟨i, hi, ?_⟩
    fin_cases k
    · left; simpa using h
    · right; left; simpa using h
    · right; right; simpa using h

theorem zip_maps {β γ : Type*} (f : ℕ → β) (g : ℕ → γ) (l : List ℕ) : (l.map f).zip (l.map g) = l.map fun i => (f i, g i) := by
  induction l with
  | nil => rfl
  | cons a l ih => simp [ih]

theorem zipWith3_maps {β : Type*} (f : ℕ → ℕ → ℕ → β) (a b c : ℕ → ℕ) (l : List ℕ) :
    List.zipWith3 f (l.map a) (l.map b) (l.map c) = l.map fun i => f (a i) (b i) (c i) := by
  induction l with
  | nil => rfl
  | cons x l ih => simp [List.zipWith3, ih]

/-- Reading a successful `mapM` by name. -/
theorem lookup_mapM {β : Type*} (F : String → Option β) : ∀ (names : List String) (out : List (String × β)),
    names.mapM (fun n => (F n).map fun v => (n, v)) = some out →
      (∀ n ∈ names, out.lookup n = F n) ∧ ∀ n, n ∉ names → out.lookup n = none := by
  intro names
  induction names with
  | nil => intro out h; simp at h; subst h; simp
  | cons m names ih =>
    intro out h
    rw [List.mapM_cons] at h
    rcases hm : F m with _ | v
    · simp [hm] at h
    · simp only [hm, Option.map_some] at h
      rcases ho : names.mapM (fun n => (F n).map fun v => (n, v)) with _ | o
      · simp [ho] at h
      · simp [ho] at h
        subst h
        obtain ⟨h1, h2⟩ := ih o ho
        refine ⟨?_, ?_⟩
        · intro n hn
          by_cases e : n = m
          · subst e; simp [hm]
          · rw [List.lookup_cons, show (n == m) = false by simpa using e]
            exact h1 n ((List.mem_cons.mp hn).resolve_left e)
        · intro n hn
          simp only [List.mem_cons, not_or] at hn
          rw [List.lookup_cons, show (n == m) = false by simpa using hn.1]
          exact h2 n hn.2

theorem mapM_ok {β γ : Type*} (F : β → Option γ) : ∀ l : List β, (∀ a ∈ l, ∃ b, F a = some b) →
    ∃ out, l.mapM F = some out ∧ out.length = l.length ∧ ∀ (k : ℕ) (a : β), l[k]? = some a → ∃ b, F a = some b ∧ out[k]? = some b := by
  intro l
  induction l with
  | nil => intro _; exact ⟨[], rfl, rfl, by simp⟩
  | cons a l ih =>
    intro h
    obtain ⟨b, hb⟩ := h a (by simp)
    obtain ⟨out, h1, h2, h3⟩ := ih (fun c hc => h c (by simp [hc]))
    refine ⟨b :: out, by rw [List.mapM_cons, hb, h1]; rfl, by simp [h2], ?_⟩
    intro k c hk
    cases k with
    | zero => simp at hk; subst hk; exact ⟨b, hb, by simp⟩
    | succ k => simpa using h3 k c (by simpa using hk)

end Arrays

end Verif.Sww
