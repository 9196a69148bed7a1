import Verif.Mesh.Model
import Verif.Mesh.Spec
import Mathlib.Data.List.Nodup
import Mathlib.Tactic.Linarith
import Mathlib.Tactic.Common

set_option linter.unusedSectionVars false

namespace Verif.Mesh

abbrev Entry := (ℕ × ℕ) × (ℕ × ℕ)

theorem lookup_isSome_iff {β : Type*} (l : List ((ℕ × ℕ) × β)) (k : ℕ × ℕ) :
    (l.lookup k).isSome ↔ k ∈ l.map Prod.fst := by
  induction l with
  | nil => simp
  | cons x xs ih =>
    rw [List.lookup_cons]
    by_cases h : k = x.1
    · simp [h]
    · have : (k == x.1) = false := by simpa using h
      simp only [this, List.map_cons, List.mem_cons, h, false_or]
      exact ih

theorem lookup_eq_some_iff {β : Type*} (l : List ((ℕ × ℕ) × β)) (hn : (l.map Prod.fst).Nodup) (k : ℕ × ℕ) (v : β) :
    l.lookup k = some v ↔ (k, v) ∈ l := by
  induction l with
  | nil => simp
  | cons x xs ih =>
    rw [List.map_cons, List.nodup_cons] at hn
    rw [List.lookup_cons]
    by_cases h : k = x.1
    · subst h
      simp only [beq_self_eq_true, List.mem_cons]
      constructor
      · intro hv
        simp at hv
        left; rw [← hv]
      · rintro (hv | hv)
        · rw [← hv]
        · exact absurd (List.mem_map_of_mem (f := Prod.fst) hv) hn.1
    · have : (k == x.1) = false := by simpa using h
      simp only [this, List.mem_cons]
      rw [ih hn.2]
      constructor
      · exact Or.inr
      · rintro (hv | hv)
        · exact absurd (by rw [← hv]) h
        · exact hv

/-- `insertAll` succeeds when all keys are new and distinct, and then stores everything. -/
theorem insertAll_of_nodup (es : List Entry) : ∀ tbl : List Entry, ((es.reverse ++ tbl).map Prod.fst).Nodup →
    insertAll tbl es = some (es.reverse ++ tbl) := by
  induction es with
  | nil => intro tbl _; simp [insertAll]
  | cons x xs ih =>
    intro tbl h
    simp only [List.reverse_cons, List.append_assoc, List.singleton_append] at h ⊢
    unfold insertAll
    have hnot : ¬ (tbl.lookup x.1).isSome := by
      rw [lookup_isSome_iff]
      rw [List.map_append, List.nodup_append] at h
      have := h.2.1
      rw [List.map_cons, List.nodup_cons] at this
      exact this.1
    rw [if_neg hnot]
    exact ih _ h

theorem insertAll_some (es : List Entry) : ∀ tbl tbl' : List Entry, (tbl.map Prod.fst).Nodup →
    insertAll tbl es = some tbl' → tbl' = es.reverse ++ tbl ∧ (tbl'.map Prod.fst).Nodup := by
  induction es with
  | nil => intro tbl tbl' hn h; simp [insertAll] at h; subst h; exact ⟨rfl, hn⟩
  | cons x xs ih =>
    intro tbl tbl' hn h
    unfold insertAll at h
    split_ifs at h with hl
    rw [lookup_isSome_iff] at hl
    obtain ⟨h1, h2⟩ := ih _ _ (by rw [List.map_cons, List.nodup_cons]; exact ⟨hl, hn⟩) h
    exact ⟨by rw [h1]; simp, h2⟩

theorem insertAll_nil_some_iff (es : List Entry) :
    (∃ tbl, insertAll [] es = some tbl) ↔ (es.map Prod.fst).Nodup := by
  constructor
  · rintro ⟨tbl, h⟩
    obtain ⟨h1, h2⟩ := insertAll_some es [] tbl (by simp) h
    subst h1
    simpa [List.map_reverse] using h2
  · intro h
    refine ⟨es.reverse ++ [], ?_⟩
    apply insertAll_of_nodup
    simpa [List.map_reverse] using h

theorem mem_entriesOf (k : ℕ) (t : Tri) (a b k' e : ℕ) :
    ((a, b), (k', e)) ∈ entriesOf k t ↔ k' = k ∧
      ((e = 0 ∧ a = t.2.1 ∧ b = t.2.2) ∨ (e = 1 ∧ a = t.2.2 ∧ b = t.1) ∨ (e = 2 ∧ a = t.1 ∧ b = t.2.1)) := by
  obtain ⟨n0, n1, n2⟩ := t
  simp only [entriesOf, List.mem_cons, Prod.mk.injEq, List.not_mem_nil, or_false]
  tauto

theorem mem_allEntries (tris : List Tri) (a b k e : ℕ) :
    ((a, b), (k, e)) ∈ allEntries tris ↔ DirEdge tris k e a b := by
  unfold allEntries DirEdge
  simp only [List.mem_flatten, List.mem_map]
  constructor
  · rintro ⟨l, ⟨p, hp, rfl⟩, h⟩
    rw [List.mem_zipIdx_iff_getElem?] at hp
    rw [mem_entriesOf] at h
    obtain ⟨rfl, h⟩ := h
    exact ⟨p.1.1, p.1.2.1, p.1.2.2, hp, h⟩
  · rintro ⟨n0, n1, n2, hk, h⟩
    refine ⟨_, ⟨((n0, n1, n2), k), ?_, rfl⟩, ?_⟩
    · rw [List.mem_zipIdx_iff_getElem?]; exact hk
    · rw [mem_entriesOf]; exact ⟨rfl, h⟩

theorem allEntries_snd_nodup_aux (tris : List Tri) : ∀ n : ℕ,
    (((tris.zipIdx n).map (fun p => entriesOf p.2 p.1)).flatten.map Prod.snd).Nodup ∧
    ∀ x ∈ ((tris.zipIdx n).map (fun p => entriesOf p.2 p.1)).flatten, n ≤ x.2.1 := by
  induction tris with
  | nil => intro n; simp
  | cons t ts ih =>
    intro n
    obtain ⟨h1, h2⟩ := ih (n + 1)
    obtain ⟨n0, n1, n2⟩ := t
    simp only [List.zipIdx_cons, List.map_cons, List.flatten_cons, List.map_append]
    constructor
    · rw [List.nodup_append]
      refine ⟨by simp [entriesOf], h1, ?_⟩
      intro x hx y hy
      obtain ⟨y', hy', rfl⟩ := List.mem_map.mp hy
      have hy2 := h2 y' hy'
      simp [entriesOf] at hx
      rcases hx with rfl | rfl | rfl <;>
      · intro he
        rw [← he] at hy2
        simp at hy2
    · intro x hx
      rw [List.mem_append] at hx
      rcases hx with hx | hx
      · simp [entriesOf] at hx
        rcases hx with rfl | rfl | rfl <;> simp
      · exact le_trans (Nat.le_succ n) (h2 x hx)

theorem allEntries_snd_nodup (tris : List Tri) : ((allEntries tris).map Prod.snd).Nodup :=
  (allEntries_snd_nodup_aux tris 0).1

theorem keys_nodup_iff (tris : List Tri) : ((allEntries tris).map Prod.fst).Nodup ↔ Conforming tris := by
  have hnd : (allEntries tris).Nodup := List.Nodup.of_map _ (allEntries_snd_nodup tris)
  constructor
  · intro h k e k' e' a b h1 h2
    rw [← mem_allEntries] at h1 h2
    have := List.inj_on_of_nodup_map h h1 h2 rfl
    simp at this
    exact this
  · intro h
    apply List.Nodup.map_on _ hnd
    rintro ⟨⟨a, b⟩, k, e⟩ hx ⟨⟨a', b'⟩, k', e'⟩ hy hxy
    simp at hxy
    obtain ⟨rfl, rfl⟩ := hxy
    rw [mem_allEntries] at hx hy
    obtain ⟨rfl, rfl⟩ := h _ _ _ _ _ _ hx hy
    rfl

theorem lookupRev_eq_some_iff (tris : List Tri) (tbl : List Entry) (h : insertAll [] (allEntries tris) = some tbl)
    (k e l j : ℕ) : lookupRev tbl tris k e = some (l, j) ↔ Across tris k e l j := by
  obtain ⟨h1, h2⟩ := insertAll_some _ _ _ (by simp) h
  unfold lookupRev Across
  cases hk : tris[k]? with
  | none =>
    simp only [reduceCtorEq, false_iff]
    rintro ⟨a, b, ⟨_, _, _, hk', _⟩, _⟩
    rw [hk] at hk'; simp at hk'
  | some t =>
    obtain ⟨n0, n1, n2⟩ := t
    simp only
    have key : ∀ x y, tbl.lookup (x, y) = some (l, j) ↔ DirEdge tris l j x y := by
      intro x y
      rw [lookup_eq_some_iff _ h2, h1, ← mem_allEntries]; simp
    constructor
    · intro hl
      split_ifs at hl with he
      have hcases : e = 0 ∨ e = 1 ∨ e = 2 := by omega
      rcases hcases with rfl | rfl | rfl
      · exact ⟨n1, n2, ⟨n0, n1, n2, hk, by simp⟩, (key _ _).mp hl⟩
      · exact ⟨n2, n0, ⟨n0, n1, n2, hk, by simp⟩, (key _ _).mp hl⟩
      · exact ⟨n0, n1, ⟨n0, n1, n2, hk, by simp⟩, (key _ _).mp hl⟩
    · rintro ⟨a, b, ⟨m0, m1, m2, hk', hab⟩, hd⟩
      rw [hk] at hk'
      simp at hk'
      obtain ⟨rfl, rfl, rfl⟩ := hk'
      rcases hab with ⟨rfl, rfl, rfl⟩ | ⟨rfl, rfl, rfl⟩ | ⟨rfl, rfl, rfl⟩
      all_goals
        simp only [Nat.zero_lt_succ, if_true, reversedKey, Nat.reduceLT]
        exact (key _ _).mpr hd

/-! ### Boundary dictionary -/

/-- The dictionary after running over candidate edges `ps`. -/
theorem fold_dict (dt : String) (nb : ℕ × ℕ → ℤ) (ps : List (ℕ × ℕ)) : ∀ d : BDict, (d.map Prod.fst).Nodup →
    let d' := ps.foldl (fun d p => if nb p < 0 then (if (d.lookup p).isSome then d else d ++ [(p, dt)]) else d) d
    (d'.map Prod.fst).Nodup ∧
    ∀ q tag, d'.lookup q = some tag ↔
      (d.lookup q = some tag ∨ (d.lookup q = none ∧ q ∈ ps ∧ nb q < 0 ∧ tag = dt)) := by
  induction ps with
  | nil => intro d hd; simp [hd]
  | cons x xs ih =>
    intro d hd
    simp only [List.foldl_cons]
    by_cases hx : nb x < 0
    · simp only [hx, if_true]
      by_cases hl : (d.lookup x).isSome
      · simp only [hl, if_true]
        obtain ⟨h1, h2⟩ := ih d hd
        refine ⟨h1, ?_⟩
        intro q tag
        rw [h2]
        constructor
        · rintro (h | ⟨a, b, c, e⟩)
          · exact Or.inl h
          · exact Or.inr ⟨a, List.mem_cons_of_mem _ b, c, e⟩
        · rintro (h | ⟨a, b, c, e⟩)
          · exact Or.inl h
          · rcases List.mem_cons.mp b with rfl | b
            · rw [a] at hl; simp at hl
            · exact Or.inr ⟨a, b, c, e⟩
      · rw [if_neg hl]
        have hnone : d.lookup x = none := by
          cases hh : d.lookup x with
          | none => rfl
          | some y => rw [hh] at hl; simp at hl
        have hmem : x ∉ d.map Prod.fst := by rwa [lookup_isSome_iff] at hl
        have hd2 : ((d ++ [(x, dt)]).map Prod.fst).Nodup := by
          rw [List.map_append, List.nodup_append]
          refine ⟨hd, by simp, ?_⟩
          intro a ha b hb
          simp at hb
          subst hb
          rintro rfl
          exact hmem ha
        obtain ⟨h1, h2⟩ := ih _ hd2
        refine ⟨h1, ?_⟩
        have hlk : ∀ q, (d ++ [(x, dt)]).lookup q = if q = x then some dt else d.lookup q := by
          intro q
          rw [List.lookup_append]
          by_cases hq : q = x
          · subst hq; simp [hnone, List.lookup]
          · have : (q == x) = false := by simpa using hq
            simp [List.lookup, this, hq]
        intro q tag
        rw [h2, hlk]
        by_cases hq : q = x
        · subst hq
          simp only [if_true, hnone, List.mem_cons, true_or, hx, true_and, reduceCtorEq, false_or, false_and, or_false,
            Option.some.injEq]
          exact eq_comm
        · simp [hq]
    · simp only [hx, if_false]
      obtain ⟨h1, h2⟩ := ih d hd
      refine ⟨h1, ?_⟩
      intro q tag
      rw [h2]
      constructor
      · rintro (h | ⟨a, b, c, e⟩)
        · exact Or.inl h
        · exact Or.inr ⟨a, List.mem_cons_of_mem _ b, c, e⟩
      · rintro (h | ⟨a, b, c, e⟩)
        · exact Or.inl h
        · rcases List.mem_cons.mp b with rfl | b
          · exact absurd c hx
          · exact Or.inr ⟨a, b, c, e⟩

theorem enumDict_eq (X : List (ℕ × ℕ)) : ∀ n : ℕ, enumDict X (-(n : ℤ) - 1) = X.zipIdx n := by
  induction X with
  | nil => intro n; rfl
  | cons x xs ih =>
    intro n
    unfold enumDict
    rw [List.zipIdx_cons]
    congr 1
    · congr 1; omega
    · rw [← ih (n + 1)]; congr 1; push_cast; omega

theorem enumLoop_not_mem (X : List (ℕ × ℕ)) : ∀ (i : ℤ) (nb : ℕ × ℕ → ℤ) (p : ℕ × ℕ), p ∉ X → enumLoop X i nb p = nb p := by
  induction X with
  | nil => intro i nb p _; rfl
  | cons x xs ih =>
    intro i nb p hp
    rw [List.mem_cons, not_or] at hp
    unfold enumLoop
    rw [ih _ _ _ hp.2, Function.update_of_ne hp.1]

theorem enumLoop_getElem (X : List (ℕ × ℕ)) : ∀ (i : ℤ) (nb : ℕ × ℕ → ℤ) (j : ℕ) (p : ℕ × ℕ), X.Nodup → X[j]? = some p →
    enumLoop X i nb p = i - j := by
  induction X with
  | nil => intro i nb j p _ h; simp at h
  | cons x xs ih =>
    intro i nb j p hn h
    rw [List.nodup_cons] at hn
    unfold enumLoop
    cases j with
    | zero =>
      simp at h
      subst h
      rw [enumLoop_not_mem _ _ _ _ hn.1]; simp
    | succ j =>
      simp at h
      rw [ih _ _ j p hn.2 h]; push_cast; omega

theorem fold_set {α : Type*} (f : α → ℕ) (X : List α) : ∀ (n : ℕ) (a : List ℕ), a.length = n + X.length →
    (X.zipIdx n).foldl (fun a p => a.set p.2 (f p.1)) a = a.take n ++ X.map f := by
  induction X with
  | nil => intro n a h; simp at h; simp [← h]
  | cons x xs ih =>
    intro n a h
    rw [List.zipIdx_cons, List.foldl_cons, ih (n + 1) _ (by simp [h]; omega)]
    simp only [List.map_cons]
    rw [List.take_add_one, List.getElem?_set_self (by rw [h]; simp)]
    simp [List.take_set_of_le]

end Verif.Mesh
