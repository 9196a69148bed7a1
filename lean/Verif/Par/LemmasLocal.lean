import Verif.Par.LemmasGhost

/-!
# Lemmas: local numbering
-/

namespace Verif.Par

open Verif.Mesh (Tri BDict MeshData MeshErr buildMesh DirEdge Conforming Across)

/-- `map` numbers the entries of `L` by their place and everything else by -1. -/
def Numbers (map : List ℤ) (L : List ℕ) : Prop :=
  L.Nodup ∧ (∀ (k x : ℕ), L[k]? = some x → map[x]? = some (k : ℤ)) ∧ ∀ (x : ℕ) (v : ℤ), x ∉ L → map[x]? = some v → v = -1

theorem Numbers.at {map : List ℤ} {L : List ℕ} (h : Numbers map L) {k x : ℕ} (hk : L[k]? = some x) : at' map x = k := by
  unfold at'
  rw [List.getD_eq_getElem?_getD, h.2.1 k x hk]
  simp

theorem foldl_set_prop (w : ℕ) (k : ℕ) (l : List (ℤ × ℕ)) : ∀ a : List ℕ, k < a.length →
    (∀ x ∈ l, x.1.toNat = k → x.2 = w) → (a[k]? = some w ∨ ∃ x ∈ l, x.1.toNat = k) →
    (l.foldl (fun a x => a.set x.1.toNat x.2) a)[k]? = some w := by
  induction l with
  | nil =>
    intro a _ _ h
    rcases h with h | ⟨x, hx, _⟩
    · exact h
    · cases hx
  | cons b l ih =>
    intro a hk hall h
    rw [List.foldl_cons]
    apply ih
    · simpa using hk
    · exact fun x hx => hall x (List.mem_cons_of_mem _ hx)
    · by_cases hb : b.1.toNat = k
      · left
        rw [hb, List.getElem?_set_self hk, hall b List.mem_cons_self hb]
      · rw [List.getElem?_set_ne hb]
        rcases h with h | ⟨x, hx, hxk⟩
        · exact Or.inl h
        · rcases List.mem_cons.mp hx with rfl | hx
          · exact absurd hxk hb
          · exact Or.inr ⟨x, hx, hxk⟩

theorem foldl_set_length (l : List (ℤ × ℕ)) : ∀ a : List ℕ, (l.foldl (fun a x => a.set x.1.toNat x.2) a).length = a.length := by
  induction l with
  | nil => intro a; rfl
  | cons b l ih => intro a; rw [List.foldl_cons, ih, List.length_set]

theorem Numbers.l2g {map : List ℤ} {L : List ℕ} (h : Numbers map L) : l2g map = L := by
  obtain ⟨hn, h1, h2⟩ := h
  have hmem : ∀ x : ℤ × ℕ, x ∈ map.zipIdx.filter (fun x => decide (x.1 > -1)) ↔ ∃ k : ℕ, L[k]? = some x.2 ∧ x.1 = (k : ℤ) := by
    rintro ⟨v, i⟩
    simp only [List.mem_filter, List.mem_zipIdx_iff_getElem?, decide_eq_true_eq]
    constructor
    · rintro ⟨hi, hv⟩
      by_cases hL : i ∈ L
      · obtain ⟨k, hk⟩ := List.mem_iff_getElem?.mp hL
        refine ⟨k, hk, ?_⟩
        have := h1 k i hk
        rw [hi] at this
        exact Option.some.inj this
      · have := h2 i v hL hi
        omega
    · rintro ⟨k, hk, rfl⟩
      exact ⟨h1 k i hk, by omega⟩
  have hlen : (map.zipIdx.filter (fun x => decide (x.1 > -1))).length = L.length := by
    have hp : ((map.zipIdx.filter (fun x => decide (x.1 > -1))).map Prod.snd).Perm L := by
      rw [List.perm_ext_iff_of_nodup _ hn]
      · intro x
        constructor
        · intro hx
          obtain ⟨y, hy, rfl⟩ := List.mem_map.mp hx
          obtain ⟨k, hk, _⟩ := (hmem y).mp hy
          exact List.mem_of_getElem? hk
        · intro hx
          obtain ⟨k, hk⟩ := List.mem_iff_getElem?.mp hx
          exact List.mem_map.mpr ⟨((k : ℤ), x), (hmem _).mpr ⟨k, hk, rfl⟩, rfl⟩
      · have : (map.zipIdx.map Prod.snd).Nodup := by
          rw [List.zipIdx_map_snd]
          exact List.nodup_range'
        exact this.sublist (List.Sublist.map _ List.filter_sublist)
    rw [← hp.length_eq, List.length_map]
  unfold Par.l2g
  apply List.ext_getElem?
  intro k
  by_cases hk : k < L.length
  · rw [List.getElem?_eq_getElem hk]
    apply foldl_set_prop
    · rw [List.length_replicate, hlen]; exact hk
    · intro x hx hxk
      obtain ⟨j, hj, he⟩ := (hmem x).mp hx
      have : j = k := by omega
      subst this
      rw [List.getElem?_eq_getElem hk] at hj
      exact (Option.some.inj hj).symm
    · right
      exact ⟨((k : ℤ), L[k]), (hmem _).mpr ⟨k, List.getElem?_eq_getElem hk, rfl⟩, by simp⟩
  · rw [List.getElem?_eq_none (l := L) (by omega), List.getElem?_eq_none]
    simp only [foldl_set_length, List.length_replicate, hlen]
    omega

theorem foldl_setZ (f : ℕ → ℤ) (L : List ℕ) : ∀ (c : ℕ) (a : List ℤ), L.Nodup →
    (∀ (k x : ℕ), L[k]? = some x → x < a.length →
      ((L.zipIdx c).foldl (fun a g => a.set g.1 (f g.2)) a)[x]? = some (f (k + c))) ∧
    ∀ x, x ∉ L → ((L.zipIdx c).foldl (fun a g => a.set g.1 (f g.2)) a)[x]? = a[x]? := by
  induction L with
  | nil =>
    intro c a _
    refine ⟨fun k x hx => by simp at hx, fun x _ => rfl⟩
  | cons b L ih =>
    intro c a hn
    obtain ⟨hb, hL⟩ := List.nodup_cons.mp hn
    obtain ⟨i1, i2⟩ := ih (c + 1) (a.set b (f c)) hL
    simp only [List.zipIdx_cons, List.foldl_cons]
    constructor
    · intro k x hk hx
      cases k with
      | zero =>
        simp only [List.getElem?_cons_zero, Option.some.injEq] at hk
        subst hk
        rw [i2 b hb, List.getElem?_set_self hx]
        simp
      | succ k =>
        rw [List.getElem?_cons_succ] at hk
        rw [i1 k x hk (by simpa using hx)]
        congr 2
        omega
    · intro x hx
      rw [List.mem_cons, not_or] at hx
      rw [i2 x hx.2, List.getElem?_set_ne (Ne.symm hx.1)]

theorem le_foldl_max (l : List ℕ) : ∀ a : ℕ, a ≤ l.foldl max a ∧ ∀ x ∈ l, x ≤ l.foldl max a := by
  induction l with
  | nil => intro a; exact ⟨le_refl _, fun x hx => by cases hx⟩
  | cons b l ih =>
    intro a
    obtain ⟨h1, h2⟩ := ih (max a b)
    rw [List.foldl_cons]
    refine ⟨le_trans (le_max_left _ _) h1, ?_⟩
    intro x hx
    rcases List.mem_cons.mp hx with rfl | hx
    · exact le_trans (le_max_right _ _) h1
    · exact h2 x hx

theorem nodeMap_numbers (nodes : List ℕ) (h : nodes.Nodup) : Numbers (nodeMap nodes) nodes := by
  obtain ⟨h1, h2⟩ := foldl_setZ (fun n => (n : ℤ)) nodes 0 (List.replicate (nodes.foldl max 0 + 1) (-1)) h
  refine ⟨h, ?_, ?_⟩
  · intro k x hk
    have := h1 k x hk (by
      rw [List.length_replicate]
      have := (le_foldl_max nodes 0).2 x (List.mem_of_getElem? hk)
      omega)
    rw [Nat.add_zero] at this
    exact this
  · intro x v hx hv
    have := h2 x hx
    unfold nodeMap at hv
    rw [this] at hv
    have := List.eq_of_mem_replicate (List.mem_of_getElem? hv)
    exact this

theorem triMap_numbers (lo up : ℕ) (gs : List ℕ) (hlu : lo ≤ up) (hn : gs.Nodup) (hg : ∀ x ∈ gs, x < lo ∨ up ≤ x) :
    Numbers (triMap lo up gs) (fullIds lo up ++ gs) := by
  have hf : (fullIds lo up).Nodup := (fullIds_sorted lo up).imp (fun h => h.ne)
  have hnd : (fullIds lo up ++ gs).Nodup := by
    refine List.nodup_append.mpr ⟨hf, hn, ?_⟩
    intro a ha b hb hab
    subst hab
    have := (mem_fullIds lo up a).mp ha
    have := hg a hb
    omega
  obtain ⟨h1, h2⟩ := foldl_setZ (fun n => (n : ℤ) + up - lo) gs 0
    ((List.range (gs.foldl max up + 1)).map (fun i => if lo ≤ i ∧ i < up then (i : ℤ) - lo else -1)) hn
  obtain ⟨b1, b2⟩ := le_foldl_max gs up
  have hT : triMap lo up gs = gs.zipIdx.foldl (fun a g => a.set g.1 ((g.2 : ℤ) + up - lo))
    ((List.range (gs.foldl max up + 1)).map (fun i => if lo ≤ i ∧ i < up then (i : ℤ) - lo else -1)) := rfl
  refine ⟨hnd, ?_, ?_⟩
  · intro k x hk
    by_cases hkl : k < up - lo
    · rw [List.getElem?_append_left (by rw [fullIds_length]; exact hkl)] at hk
      have hx : x = lo + k := by
        unfold fullIds at hk
        rw [List.getElem?_range' hkl] at hk
        have := Option.some.inj hk
        omega
      have hxg : x ∉ gs := by
        intro hh
        have := hg x hh
        omega
      rw [hT]
      rw [h2 x hxg, List.getElem?_map, List.getElem?_range (by omega), Option.map_some, if_pos (by omega)]
      congr 1
      omega
    · rw [List.getElem?_append_right (by rw [fullIds_length]; omega), fullIds_length] at hk
      have := h1 _ x hk (by
        rw [List.length_map, List.length_range]
        have := b2 x (List.mem_of_getElem? hk)
        omega)
      rw [hT]
      rw [this]
      congr 1
      omega
  · intro x v hx hv
    rw [List.mem_append, not_or, mem_fullIds] at hx
    rw [hT, h2 x hx.2, List.getElem?_map] at hv
    by_cases hxl : x < gs.foldl max up + 1
    · rw [List.getElem?_range hxl, Option.map_some, if_neg hx.1] at hv
      exact (Option.some.inj hv).symm
    · rw [List.getElem?_eq_none (by simp; omega)] at hv
      cases hv

/-! ## dictionaries -/

theorem dictSet_lookup (d : BDict) (k q : ℕ × ℕ) (v : String) :
    (dictSet d k v).lookup q = if q = k then some v else d.lookup q := by
  induction d with
  | nil =>
    by_cases h : q = k
    · simp [dictSet, h]
    · have : (q == k) = false := by simpa using h
      simp [dictSet, List.lookup, h, this]
  | cons e d ih =>
    unfold dictSet
    by_cases he : e.1 = k
    · rw [if_pos he]
      by_cases h : q = k
      · simp [List.lookup, h]
      · have h1 : (q == k) = false := by simpa using h
        have h2 : (q == e.1) = false := by rw [he]; exact h1
        obtain ⟨e1, e2⟩ := e
        simp only at h2
        simp [List.lookup, h, h1, h2]
    · rw [if_neg he]
      obtain ⟨e1, e2⟩ := e
      simp only [List.lookup]
      by_cases h : q = e1
      · have : (q == e1) = true := by simpa using h
        have hk : q ≠ k := by rw [h]; exact he
        simp [this, hk]
      · have : (q == e1) = false := by simpa using h
        simp only [this]
        rw [ih]

theorem dictSet_keys (d : BDict) (k : ℕ × ℕ) (v : String) (x : ℕ × ℕ) :
    x ∈ (dictSet d k v).map Prod.fst ↔ x = k ∨ x ∈ d.map Prod.fst := by
  rw [← Verif.Mesh.lookup_isSome_iff, ← Verif.Mesh.lookup_isSome_iff, dictSet_lookup]
  by_cases h : x = k <;> simp [h]

theorem dictSet_nodup (d : BDict) (k : ℕ × ℕ) (v : String) (h : (d.map Prod.fst).Nodup) :
    ((dictSet d k v).map Prod.fst).Nodup := by
  induction d with
  | nil => simp [dictSet]
  | cons e d ih =>
    rw [List.map_cons, List.nodup_cons] at h
    unfold dictSet
    by_cases he : e.1 = k
    · rw [if_pos he]
      subst he
      rw [List.map_cons, List.nodup_cons]
      exact h
    · rw [if_neg he, List.map_cons, List.nodup_cons]
      refine ⟨?_, ih h.2⟩
      rw [dictSet_keys, not_or]
      exact ⟨he, h.1⟩

theorem fold_dictSet {α : Type*} (f : α → ℕ × ℕ) (g : α → String) (l : List α) : ∀ (d : BDict), (d.map Prod.fst).Nodup →
    (l.map f).Nodup →
    ((l.foldl (fun b x => dictSet b (f x) (g x)) d).map Prod.fst).Nodup ∧
    ∀ q tag, (l.foldl (fun b x => dictSet b (f x) (g x)) d).lookup q = some tag ↔
      (∃ x ∈ l, f x = q ∧ g x = tag) ∨ ((∀ x ∈ l, f x ≠ q) ∧ d.lookup q = some tag) := by
  induction l with
  | nil =>
    intro d hd _
    refine ⟨hd, ?_⟩
    simp
  | cons a l ih =>
    intro d hd hl
    rw [List.map_cons, List.nodup_cons] at hl
    obtain ⟨i1, i2⟩ := ih (dictSet d (f a) (g a)) (dictSet_nodup _ _ _ hd) hl.2
    rw [List.foldl_cons]
    refine ⟨i1, ?_⟩
    intro q tag
    rw [i2, dictSet_lookup]
    simp only [List.mem_cons, exists_eq_or_imp, forall_eq_or_imp]
    by_cases hq : q = f a
    · subst hq
      have hno : ∀ x ∈ l, f x ≠ f a := fun x hx he => hl.1 (List.mem_map.mpr ⟨x, hx, he⟩)
      simp only [if_true, Option.some.injEq, true_and, not_true, false_and, or_false, Ne]
      constructor
      · rintro (⟨x, hx, he, _⟩ | ⟨_, h⟩)
        · exact absurd he (hno x hx)
        · exact Or.inl h
      · rintro (h | ⟨x, hx, he, _⟩)
        · exact Or.inr ⟨hno, h⟩
        · exact absurd he (hno x hx)
    · rw [if_neg hq]
      have hq' : f a ≠ q := Ne.symm hq
      simp [hq']

end Verif.Par
