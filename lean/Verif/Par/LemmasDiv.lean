import Verif.Par.Lemmas

/-!
# Lemmas: the renumbered mesh
-/

namespace Verif.Par

open Verif.Mesh (Tri BDict MeshData MeshErr buildMesh DirEdge Conforming Across)

theorem fold_update_prop {α β : Type*} [DecidableEq α] (P : β → Prop) (k : α) (l : List (α × β)) (f : α → β)
    (hall : ∀ x ∈ l, x.1 = k → P x.2) (h : P (f k) ∨ ∃ x ∈ l, x.1 = k) :
    P (l.foldl (fun f x => Function.update f x.1 x.2) f k) := by
  induction l generalizing f with
  | nil =>
    rcases h with h | ⟨x, hx, _⟩
    · exact h
    · cases hx
  | cons a l ih =>
    rw [List.foldl_cons]
    apply ih
    · exact fun x hx => hall x (List.mem_cons_of_mem _ hx)
    · by_cases hk : a.1 = k
      · left
        subst hk
        rw [Function.update_self]
        exact hall a List.mem_cons_self rfl
      · rcases h with h | ⟨x, hx, hxk⟩
        · left
          rw [Function.update_of_ne (Ne.symm hk)]
          exact h
        · rcases List.mem_cons.mp hx with rfl | hx
          · exact absurd hxk hk
          · exact Or.inr ⟨x, hx, hxk⟩

/-- New number of a serial triangle. -/
def pos (epart : List ℕ) (t : ℕ) : ℕ :=
  procSum (bincount epart) (triIndex (bincount epart) (orderOf epart) t).1 + (triIndex (bincount epart) (orderOf epart) t).2

/-- Serial number of a triangle of the new numbering. -/
def old (epart : List ℕ) (i : ℕ) : ℕ := (orderOf epart).getD i 0

theorem procSum_le (epart : List ℕ) (p : ℕ) : procSum (bincount epart) p ≤ epart.length := by
  rw [procSum_eq]; exact List.countP_le_length

theorem old_lt (epart : List ℕ) (i : ℕ) (hi : i < epart.length) : old epart i < epart.length := by
  have hil : i < (orderOf epart).length := by rw [order_length]; exact hi
  unfold old
  rw [List.getD_eq_getElem _ _ hil, ← mem_order]
  exact List.getElem_mem hil

theorem old_inj (epart : List ℕ) (i j : ℕ) (hi : i < epart.length) (hj : j < epart.length) (h : old epart i = old epart j) :
    i = j := by
  have hil : i < (orderOf epart).length := by rw [order_length]; exact hi
  have hjl : j < (orderOf epart).length := by rw [order_length]; exact hj
  unfold old at h
  rw [List.getD_eq_getElem _ _ hil, List.getD_eq_getElem _ _ hjl] at h
  exact (List.Nodup.getElem_inj_iff (order_nodup epart)).mp h

theorem old_surj (epart : List ℕ) (t : ℕ) (ht : t < epart.length) : ∃ i < epart.length, old epart i = t := by
  obtain ⟨i, hi, he⟩ := List.getElem_of_mem ((mem_order epart t).mpr ht)
  refine ⟨i, by rwa [order_length] at hi, ?_⟩
  unfold old
  rw [List.getD_eq_getElem _ _ hi]
  exact he

theorem old_range (epart : List ℕ) (i p : ℕ) (hi : i < epart.length) :
    epart.getD (old epart i) 0 = p ↔ procSum (bincount epart) p ≤ i ∧ i < procSum (bincount epart) (p + 1) :=
  order_range epart i p hi

theorem pos_spec (epart : List ℕ) (t : ℕ) (ht : t < epart.length) : pos epart t < epart.length ∧ old epart (pos epart t) = t := by
  have key : (fun v : ℕ × ℕ => v.2 < (bincount epart).getD v.1 0 ∧ old epart (procSum (bincount epart) v.1 + v.2) = t)
      (triIndex (bincount epart) (orderOf epart) t) := by
    unfold triIndex
    refine fold_update_prop (fun v : ℕ × ℕ => v.2 < (bincount epart).getD v.1 0 ∧
      old epart (procSum (bincount epart) v.1 + v.2) = t) t _ _ ?_ ?_
    · intro x hx hk
      simp only [List.mem_flatMap, List.mem_range, List.mem_map] at hx
      obtain ⟨i, hi, j, hj, rfl⟩ := hx
      exact ⟨hj, hk⟩
    · right
      obtain ⟨i, hi, he⟩ := old_surj epart t ht
      have hr := (old_range epart i _ hi).mp rfl
      rw [he] at hr
      have hmem : epart.getD t 0 ∈ epart := by
        rw [List.getD_eq_getElem _ _ ht]; exact List.getElem_mem ht
      rw [procSum_succ] at hr
      refine ⟨(t, (epart.getD t 0, i - procSum (bincount epart) (epart.getD t 0))), ?_, rfl⟩
      simp only [List.mem_flatMap, List.mem_range, List.mem_map]
      refine ⟨_, bincount_length epart _ hmem, i - procSum (bincount epart) (epart.getD t 0), by omega, ?_⟩
      rw [show procSum (bincount epart) (epart.getD t 0) + (i - procSum (bincount epart) (epart.getD t 0)) = i by omega]
      rw [show (orderOf epart).getD i 0 = t from he]
  obtain ⟨h1, h2⟩ := key
  refine ⟨?_, h2⟩
  have := procSum_le epart ((triIndex (bincount epart) (orderOf epart) t).1 + 1)
  rw [procSum_succ] at this
  unfold pos
  omega

theorem pos_old (epart : List ℕ) (i : ℕ) (hi : i < epart.length) : pos epart (old epart i) = i := by
  obtain ⟨h1, h2⟩ := pos_spec epart (old epart i) (old_lt epart i hi)
  exact old_inj epart _ _ h1 hi h2

/-- The mesh data of one distribution. -/
structure Setup (N : ℕ) (epart : List ℕ) (tris : List Tri) (user : BDict) (m : MeshData) (d : Division) (m' : MeshData) : Prop where
  hu : (user.map Prod.fst).Nodup
  hm : buildMesh tris user = .ok m
  hlen : epart.length = tris.length
  hd : divide N epart tris m.boundary = .ok d
  hm' : buildMesh d.tris d.boundary = .ok m'

theorem divide_ok {N : ℕ} {epart : List ℕ} {tris : List Tri} {b : BDict} {d : Division} (h : divide N epart tris b = .ok d) :
    d.tpp = bincount epart ∧ d.order = orderOf epart ∧ d.tris = (orderOf epart).map (fun i => tris.getD i (0, 0, 0)) ∧
    d.boundary = b.map (fun b => ((pos epart b.1.1, b.1.2), b.2)) ∧ d.tpp.length = N ∧ ∀ n ∈ d.tpp, 0 < n := by
  unfold divide at h
  simp only at h
  split at h
  · rename_i hall
    split at h
    · rename_i hN
      cases h
      refine ⟨rfl, rfl, rfl, rfl, hN, ?_⟩
      intro n hn
      simpa using List.all_eq_true.mp hall n hn
    · cases h
  · cases h

section

variable {N : ℕ} {epart : List ℕ} {tris : List Tri} {user : BDict} {m : MeshData} {d : Division} {m' : MeshData}

theorem divide_tris (hlen : epart.length = tris.length) (hd : divide N epart tris m.boundary = .ok d) (i : ℕ) :
    d.tris[i]? = if i < epart.length then tris[old epart i]? else none := by
  rw [(divide_ok hd).2.2.1, List.getElem?_map]
  by_cases hi : i < epart.length
  · rw [if_pos hi]
    have hil : i < (orderOf epart).length := by rw [order_length]; exact hi
    have hlt := old_lt epart i hi
    have : (orderOf epart)[i]? = some (old epart i) := by
      unfold old
      rw [List.getD_eq_getElem _ _ hil, List.getElem?_eq_getElem hil]
    rw [this, Option.map_some]
    rw [List.getD_eq_getElem _ _ (by omega), List.getElem?_eq_getElem (by omega)]
  · rw [if_neg hi, List.getElem?_eq_none (by rw [order_length]; omega)]
    rfl

theorem divide_tris_length (hd : divide N epart tris m.boundary = .ok d) : d.tris.length = epart.length := by
  rw [(divide_ok hd).2.2.1, List.length_map, order_length]

theorem divide_dirEdge (hlen : epart.length = tris.length) (hd : divide N epart tris m.boundary = .ok d) (i e a b : ℕ) :
    DirEdge d.tris i e a b ↔ i < epart.length ∧ DirEdge tris (old epart i) e a b := by
  unfold DirEdge
  rw [divide_tris hlen hd i]
  by_cases hi : i < epart.length
  · simp [hi]
  · simp [hi]

theorem divide_across (hlen : epart.length = tris.length) (hd : divide N epart tris m.boundary = .ok d) (i e l j : ℕ) :
    Across d.tris i e l j ↔ i < epart.length ∧ l < epart.length ∧ Across tris (old epart i) e (old epart l) j := by
  unfold Across
  constructor
  · rintro ⟨a, b, h1, h2⟩
    rw [divide_dirEdge hlen hd] at h1 h2
    exact ⟨h1.1, h2.1, a, b, h1.2, h2.2⟩
  · rintro ⟨hi, hl, a, b, h1, h2⟩
    exact ⟨a, b, (divide_dirEdge hlen hd _ _ _ _).mpr ⟨hi, h1⟩, (divide_dirEdge hlen hd _ _ _ _).mpr ⟨hl, h2⟩⟩

theorem divide_conforming (hlen : epart.length = tris.length) (hd : divide N epart tris m.boundary = .ok d)
    (hc : Conforming tris) : Conforming d.tris := by
  intro k e k' e' a b h1 h2
  rw [divide_dirEdge hlen hd] at h1 h2
  obtain ⟨h3, h4⟩ := hc _ _ _ _ _ _ h1.2 h2.2
  exact ⟨old_inj epart _ _ h1.1 h2.1 h3, h4⟩

theorem serial_boundary_keys (hu : (user.map Prod.fst).Nodup) (hm : buildMesh tris user = .ok m) :
    (m.boundary.map Prod.fst).Nodup ∧ ∀ x ∈ m.boundary, x.1.1 < tris.length ∧ x.1.2 < 3 := by
  obtain ⟨h1, h2, h3⟩ := Verif.Mesh.buildMesh_ok hm
  obtain ⟨ha, hb, hs⟩ := Verif.Mesh.boundaryDict_spec hu h2
  refine ⟨hb, ?_⟩
  intro x hx
  have := (Verif.Mesh.lookup_eq_some_iff m.boundary hb x.1 x.2).mpr hx
  rcases (hs _ _).mp this with h | ⟨_, h, _⟩
  · exact ha (x.1, x.2) ((Verif.Mesh.lookup_eq_some_iff user hu x.1 x.2).mp h)
  · exact h

theorem divide_boundary_nodup (hu : (user.map Prod.fst).Nodup) (hm : buildMesh tris user = .ok m)
    (hlen : epart.length = tris.length) (hd : divide N epart tris m.boundary = .ok d) :
    (d.boundary.map Prod.fst).Nodup := by
  obtain ⟨hb, hk⟩ := serial_boundary_keys hu hm
  rw [(divide_ok hd).2.2.2.1, List.map_map]
  have : (Prod.fst ∘ fun b : (ℕ × ℕ) × String => ((pos epart b.1.1, b.1.2), b.2)) =
      (fun k : ℕ × ℕ => (pos epart k.1, k.2)) ∘ Prod.fst := rfl
  rw [this, ← List.map_map]
  refine List.Nodup.map_on ?_ hb
  intro x hx y hy hxy
  obtain ⟨x', hx', rfl⟩ := List.mem_map.mp hx
  obtain ⟨y', hy', rfl⟩ := List.mem_map.mp hy
  simp only [Prod.mk.injEq] at hxy
  have h1 := pos_spec epart x'.1.1 (by rw [hlen]; exact (hk _ hx').1)
  have h2 := pos_spec epart y'.1.1 (by rw [hlen]; exact (hk _ hy').1)
  refine Prod.ext ?_ hxy.2
  rw [← h1.2, ← h2.2, hxy.1]

theorem divide_boundary_lookup (hu : (user.map Prod.fst).Nodup) (hm : buildMesh tris user = .ok m)
    (hlen : epart.length = tris.length) (hd : divide N epart tris m.boundary = .ok d) (i e : ℕ) (tag : String) :
    d.boundary.lookup (i, e) = some tag ↔ i < epart.length ∧ m.boundary.lookup (old epart i, e) = some tag := by
  obtain ⟨hb, hk⟩ := serial_boundary_keys hu hm
  rw [Verif.Mesh.lookup_eq_some_iff _ (divide_boundary_nodup hu hm hlen hd), Verif.Mesh.lookup_eq_some_iff _ hb,
    (divide_ok hd).2.2.2.1, List.mem_map]
  constructor
  · rintro ⟨x, hx, hxe⟩
    simp only [Prod.mk.injEq] at hxe
    obtain ⟨⟨h1, h2⟩, h3⟩ := hxe
    have h4 := pos_spec epart x.1.1 (by rw [hlen]; exact (hk _ hx).1)
    rw [h1] at h4
    refine ⟨h4.1, ?_⟩
    rw [h4.2, ← h2, ← h3]
    exact hx
  · rintro ⟨hi, hx⟩
    exact ⟨_, hx, by rw [pos_old epart i hi]⟩

theorem divide_mesh (hu : (user.map Prod.fst).Nodup) (hm : buildMesh tris user = .ok m)
    (hlen : epart.length = tris.length) (hd : divide N epart tris m.boundary = .ok d) :
    ∃ m', buildMesh d.tris d.boundary = .ok m' := by
  obtain ⟨h1, h2, h3⟩ := Verif.Mesh.buildMesh_ok hm
  have hc := divide_conforming hlen hd (Verif.Mesh.conforming_of_build h1)
  have hbad : buildMesh d.tris d.boundary ≠ .error .noSuchSegment := by
    rw [Ne, Verif.Mesh.C07_bad_segment_rejected]
    rintro ⟨_, x, hx, hn⟩
    apply hn
    rw [divide_tris_length hd]
    rw [(divide_ok hd).2.2.2.1, List.mem_map] at hx
    obtain ⟨y, hy, rfl⟩ := hx
    have := (serial_boundary_keys hu hm).2 y hy
    exact ⟨(pos_spec epart y.1.1 (by rw [hlen]; exact this.1)).1, this.2⟩
  cases hb : Verif.Mesh.buildNeighbours d.tris with
  | none => exact absurd hc ((Verif.Mesh.C06_rejects_exactly_nonconforming _).mp hb)
  | some nbr =>
    unfold buildMesh at hbad ⊢
    rw [hb] at hbad ⊢
    simp only at hbad ⊢
    cases hbd : Verif.Mesh.boundaryDict d.tris.length "exterior" nbr.neighbours d.boundary with
    | none => rw [hbd] at hbad; exact absurd rfl hbad
    | some b => exact ⟨_, rfl⟩

theorem Setup.boundary (s : Setup N epart tris user m d m') (i e : ℕ) (tag : String) :
    m'.boundary.lookup (i, e) = some tag ↔ i < epart.length ∧ m.boundary.lookup (old epart i, e) = some tag := by
  rw [Verif.Mesh.C07_tags d.tris d.boundary (divide_boundary_nodup s.hu s.hm s.hlen s.hd) m' s.hm']
  rw [← Verif.Mesh.lookup_eq_some_iff _ (divide_boundary_nodup s.hu s.hm s.hlen s.hd),
    divide_boundary_lookup s.hu s.hm s.hlen s.hd]
  constructor
  · rintro (h | ⟨hno, hi, he, hx, rfl⟩)
    · exact h
    · rw [divide_tris_length s.hd] at hi
      refine ⟨hi, ?_⟩
      exfalso
      have hnone : m.boundary.lookup (old epart i, e) = none := by
        cases hl : m.boundary.lookup (old epart i, e) with
        | none => rfl
        | some t =>
          exact absurd ((Verif.Mesh.lookup_eq_some_iff _ (divide_boundary_nodup s.hu s.hm s.hlen s.hd) _ _).mp
            ((divide_boundary_lookup s.hu s.hm s.hlen s.hd i e t).mpr ⟨hi, hl⟩)) (hno t)
      have hold := old_lt epart i hi
      by_cases hut : ∃ t, ((old epart i, e), t) ∈ user
      · obtain ⟨t, ht⟩ := hut
        rw [(Verif.Mesh.C07_tags tris user s.hu m s.hm _ _ t).mpr (Or.inl ht)] at hnone
        cases hnone
      · have : m.boundary.lookup (old epart i, e) = some "exterior" := by
          rw [Verif.Mesh.C07_tags tris user s.hu m s.hm]
          refine Or.inr ⟨fun t ht => hut ⟨t, ht⟩, by rw [← s.hlen]; exact hold, he, ?_, rfl⟩
          rintro ⟨l, j, hl⟩
          have hll : l < epart.length := by
            obtain ⟨a, b, _, n0, n1, n2, h2, _⟩ := hl
            rw [s.hlen]
            exact (List.getElem?_eq_some_iff.mp h2).1
          obtain ⟨l', hl', rfl⟩ := old_surj epart l hll
          exact hx ⟨l', j, (divide_across s.hlen s.hd _ _ _ _).mpr ⟨hi, hl', hl⟩⟩
        rw [this] at hnone
        cases hnone
  · exact Or.inl

/-- Neighbours in the renumbered mesh. -/
theorem Setup.neighbours (s : Setup N epart tris user m d m') (i e l : ℕ) :
    m'.enum.neighbours (i, e) = (l : ℤ) ↔ i < epart.length ∧ l < epart.length ∧
      (∃ j, Across tris (old epart i) e (old epart l) j) ∧ m.boundary.lookup (old epart i, e) = none := by
  obtain ⟨_, _, c3, _, c5⟩ := Verif.Mesh.C07_enumeration_bijective d.tris d.boundary
    (divide_boundary_nodup s.hu s.hm s.hlen s.hd) m' s.hm'
  obtain ⟨h1, h2, h3⟩ := Verif.Mesh.buildMesh_ok s.hm'
  cases hl : m'.boundary.lookup (i, e) with
  | some tag =>
    obtain ⟨j, _, _, _, _, hj⟩ := c3 i e tag hl
    constructor
    · intro h; omega
    · rintro ⟨_, _, _, hn⟩
      rw [((s.boundary i e tag).mp hl).2] at hn
      cases hn
  | none =>
    rw [(c5 _ hl).2]
    have hnone : i < epart.length → m.boundary.lookup (old epart i, e) = none := by
      intro hi
      cases hl' : m.boundary.lookup (old epart i, e) with
      | none => rfl
      | some t =>
        rw [(s.boundary i e t).mpr ⟨hi, hl'⟩] at hl
        cases hl
    rcases Verif.Mesh.nbr_cases d.tris m'.nbr h1 i e with ⟨l', j', ha, e1, e2⟩ | ⟨hno, e1, _⟩
    · have ha' := (divide_across s.hlen s.hd _ _ _ _).mp ha
      constructor
      · intro h
        have : l = l' := by omega
        subst this
        exact ⟨ha'.1, ha'.2.1, ⟨j', ha'.2.2⟩, hnone ha'.1⟩
      · rintro ⟨hi, hll, ⟨j, hj⟩, _⟩
        have := (divide_across s.hlen s.hd i e l j).mpr ⟨hi, hll, hj⟩
        obtain ⟨rfl, _⟩ := Verif.Mesh.across_unique d.tris (Verif.Mesh.conforming_of_build h1) ha this
        exact e1
    · constructor
      · intro h; omega
      · rintro ⟨hi, hll, ⟨j, hj⟩, _⟩
        exact absurd ((divide_across s.hlen s.hd i e l j).mpr ⟨hi, hll, hj⟩) (hno l j)

theorem distribute_ok {width : ℕ} {parts : List Local} (hu : (user.map Prod.fst).Nodup)
    (hm : buildMesh tris user = .ok m) (hlen : epart.length = tris.length)
    (h : distribute N width epart tris m.boundary = .ok parts) :
    ∃ d m', Setup N epart tris user m d m' ∧ parts = (List.range N).map (localOf d m' (ghostsOf d m' width)) := by
  unfold distribute at h
  cases hd : divide N epart tris m.boundary with
  | error e => rw [hd] at h; cases h
  | ok d =>
    rw [hd] at h
    simp only at h
    obtain ⟨m', hm'⟩ := divide_mesh hu hm hlen hd
    rw [hm'] at h
    simp only [Except.ok.injEq] at h
    exact ⟨d, m', ⟨hu, hm, hlen, hd, hm'⟩, h.symm⟩

end

end Verif.Par
