import Verif.Par.LemmasLocal

/-!
# Lemmas: what a processor gets
-/

namespace Verif.Par

open Verif.Mesh (Tri BDict MeshData MeshErr buildMesh DirEdge Conforming Across)

/-- Triangles of processor `p` in local order, by their new numbers. -/
def ids (d : Division) (m : MeshData) (width p : ℕ) : List ℕ :=
  fullIds (procSum d.tpp p) (procSum d.tpp (p + 1)) ++ ghostsOf d m width p

theorem drop_take_eq (l : List Tri) (lo up : ℕ) (h1 : lo ≤ up) (h2 : up ≤ l.length) :
    (l.drop lo).take (up - lo) = (fullIds lo up).map (fun i => l.getD i (0, 0, 0)) := by
  apply List.ext_getElem
  · simp [fullIds]; omega
  · intro i hi1 hi2
    simp only [List.length_map, fullIds_length] at hi2
    rw [List.getElem_take, List.getElem_drop, List.getElem_map]
    unfold fullIds
    rw [List.getElem_range', List.getD_eq_getElem _ _ (by omega)]
    congr 1
    omega

theorem mem_flat (ts : List Tri) (x : ℕ) : x ∈ flat ts ↔ ∃ t ∈ ts, x = t.1 ∨ x = t.2.1 ∨ x = t.2.2 := by
  simp [flat]

section

variable {N : ℕ} {epart : List ℕ} {tris : List Tri} {user : BDict} {m : MeshData} {d : Division} {m' : MeshData}

theorem Setup.upper_le (s : Setup N epart tris user m d m') (p : ℕ) : procSum d.tpp p ≤ epart.length := by
  rw [(divide_ok s.hd).1]; exact procSum_le epart p

theorem Setup.ghosts_outside (_s : Setup N epart tris user m d m') (width p x : ℕ) (hx : x ∈ ghostsOf d m' width p) :
    x < procSum d.tpp p ∨ procSum d.tpp (p + 1) ≤ x := ((mem_ghostIds _ _ _ _ _).mp hx).1

theorem Setup.numbers (s : Setup N epart tris user m d m') (width p : ℕ) :
    Numbers (triMap (procSum d.tpp p) (procSum d.tpp (p + 1)) (ghostsOf d m' width p)) (ids d m' width p) :=
  triMap_numbers _ _ _ (procSum_mono _ (Nat.le_succ p)) ((ghostIds_sorted _ _ _ _).imp (fun h => h.ne))
    (fun x hx => s.ghosts_outside width p x hx)

theorem Setup.ids_nodup (s : Setup N epart tris user m d m') (width p : ℕ) : (ids d m' width p).Nodup := (s.numbers width p).1

theorem Setup.own_iff (s : Setup N epart tris user m d m') (p x : ℕ) :
    x ∈ fullIds (procSum d.tpp p) (procSum d.tpp (p + 1)) ↔ x < epart.length ∧ epart.getD (old epart x) 0 = p := by
  rw [mem_fullIds]
  constructor
  · intro h
    have := s.upper_le (p + 1)
    have hx : x < epart.length := by omega
    rw [(divide_ok s.hd).1] at h
    exact ⟨hx, (old_range epart x p hx).mpr h⟩
  · rintro ⟨hx, h⟩
    rw [(divide_ok s.hd).1]
    exact (old_range epart x p hx).mp h

theorem Setup.mem_ids (s : Setup N epart tris user m d m') (width p x : ℕ) :
    x ∈ ids d m' width p ↔ x < epart.length ∧
      Within tris (Tagged m) (fun t => epart.getD t 0 = p) (max width 1) (old epart x) := by
  unfold ids
  rw [List.mem_append, s.own_iff, s.ghosts]
  constructor
  · rintro (⟨h1, h2⟩ | ⟨h1, _, h2⟩)
    · refine ⟨h1, ?_⟩
      have h0 : Within tris (Tagged m) (fun t => epart.getD t 0 = p) 0 (old epart x) :=
        .start (by rw [← s.hlen]; exact old_lt epart x h1) h2
      have : ∀ n, Within tris (Tagged m) (fun t => epart.getD t 0 = p) n (old epart x) := by
        intro n
        induction n with
        | zero => exact h0
        | succ n ih => exact .stay ih
      exact this _
    · exact ⟨h1, h2⟩
  · rintro ⟨h1, h2⟩
    by_cases h : epart.getD (old epart x) 0 = p
    · exact Or.inl ⟨h1, h⟩
    · exact Or.inr ⟨h1, h, h2⟩

theorem Setup.ids_lt (s : Setup N epart tris user m d m') (width p x : ℕ) (h : x ∈ ids d m' width p) : x < epart.length :=
  ((s.mem_ids width p x).mp h).1

theorem Setup.triL2g (s : Setup N epart tris user m d m') (width p : ℕ) :
    (localOf d m' (ghostsOf d m' width) p).triL2g = (ids d m' width p).map (old epart) := by
  show (l2g _).map _ = _
  rw [(s.numbers width p).l2g, (divide_ok s.hd).2.1]
  rfl

theorem Setup.nodes_nodup (_s : Setup N epart tris user m d m') (width p : ℕ) :
    (localOf d m' (ghostsOf d m' width) p).nodes.Nodup := by
  show (fullNodes _ _ _ ++ ghostNodes _ _ _ _).Nodup
  refine List.nodup_append.mpr ⟨(unique_sorted _).imp (fun h => h.ne), (setdiff_sorted _ _).imp (fun h => h.ne), ?_⟩
  intro a ha b hb hab
  subst hab
  exact ((mem_setdiff _ _ _).mp hb).2 ha

theorem Setup.triangles (s : Setup N epart tris user m d m') (width p : ℕ) :
    (d.tris.drop (procSum d.tpp p)).take (procSum d.tpp (p + 1) - procSum d.tpp p) ++
      (ghostsOf d m' width p).map (fun g => d.tris.getD g (0, 0, 0)) =
    (ids d m' width p).map (fun g => d.tris.getD g (0, 0, 0)) := by
  unfold ids
  rw [List.map_append, drop_take_eq _ _ _ (procSum_mono _ (Nat.le_succ p))
    (by rw [divide_tris_length s.hd]; exact s.upper_le (p + 1))]

theorem Setup.mem_nodes (s : Setup N epart tris user m d m') (width p x : ℕ) :
    x ∈ (localOf d m' (ghostsOf d m' width) p).nodes ↔
      ∃ g ∈ ids d m' width p, x = (d.tris.getD g (0, 0, 0)).1 ∨ x = (d.tris.getD g (0, 0, 0)).2.1 ∨ x = (d.tris.getD g (0, 0, 0)).2.2 := by
  show x ∈ fullNodes _ _ _ ++ ghostNodes _ _ _ _ ↔ _
  have h : x ∈ fullNodes d.tris (procSum d.tpp p) (procSum d.tpp (p + 1)) ++
      ghostNodes d.tris (procSum d.tpp p) (procSum d.tpp (p + 1)) (ghostsOf d m' width p) ↔
      x ∈ flat ((ids d m' width p).map (fun g => d.tris.getD g (0, 0, 0))) := by
    rw [← s.triangles]
    unfold fullNodes ghostNodes fullNodes
    rw [List.mem_append, mem_setdiff, mem_unique, mem_unique]
    unfold flat
    rw [List.flatMap_append, List.mem_append]
    by_cases hx : x ∈ List.flatMap (fun t : Tri => [t.1, t.2.1, t.2.2])
      (List.take (procSum d.tpp (p + 1) - procSum d.tpp p) (List.drop (procSum d.tpp p) d.tris))
    · simp [hx]
    · simp [hx]
  rw [h, mem_flat]
  simp

theorem Setup.nodes_numbers (s : Setup N epart tris user m d m') (width p : ℕ) :
    Numbers (nodeMap (localOf d m' (ghostsOf d m' width) p).nodes) (localOf d m' (ghostsOf d m' width) p).nodes :=
  nodeMap_numbers _ (s.nodes_nodup width p)

theorem Setup.nodeL2g (s : Setup N epart tris user m d m') (width p : ℕ) :
    (localOf d m' (ghostsOf d m' width) p).nodeL2g = (localOf d m' (ghostsOf d m' width) p).nodes := by
  show l2g (nodeMap (localOf d m' (ghostsOf d m' width) p).nodes) = _
  exact (s.nodes_numbers width p).l2g

theorem Setup.local_tris (s : Setup N epart tris user m d m') (width p : ℕ) :
    (localOf d m' (ghostsOf d m' width) p).tris = (ids d m' width p).map (fun g =>
      (at' (nodeMap (localOf d m' (ghostsOf d m' width) p).nodes) (d.tris.getD g (0, 0, 0)).1,
       at' (nodeMap (localOf d m' (ghostsOf d m' width) p).nodes) (d.tris.getD g (0, 0, 0)).2.1,
       at' (nodeMap (localOf d m' (ghostsOf d m' width) p).nodes) (d.tris.getD g (0, 0, 0)).2.2)) := by
  show List.map _ ((d.tris.drop (procSum d.tpp p)).take (procSum d.tpp (p + 1) - procSum d.tpp p) ++
      (ghostsOf d m' width p).map (fun g => d.tris.getD g (0, 0, 0))) = _
  rw [s.triangles, List.map_map]
  rfl

theorem Setup.node_back (s : Setup N epart tris user m d m') (width p g x : ℕ) (hg : g ∈ ids d m' width p)
    (hx : x = (d.tris.getD g (0, 0, 0)).1 ∨ x = (d.tris.getD g (0, 0, 0)).2.1 ∨ x = (d.tris.getD g (0, 0, 0)).2.2) :
    (localOf d m' (ghostsOf d m' width) p).nodes[at' (nodeMap (localOf d m' (ghostsOf d m' width) p).nodes) x]? = some x := by
  have hm := (s.mem_nodes width p x).mpr ⟨g, hg, hx⟩
  obtain ⟨k, hk⟩ := List.mem_iff_getElem?.mp hm
  rw [(s.nodes_numbers width p).at hk]
  exact hk

theorem Setup.tri_getD (s : Setup N epart tris user m d m') (g : ℕ) (hg : g < epart.length) :
    tris[old epart g]? = some (d.tris.getD g (0, 0, 0)) := by
  have := divide_tris s.hlen s.hd g
  rw [if_pos hg] at this
  rw [← this, List.getD_eq_getElem _ _ (by rw [divide_tris_length s.hd]; exact hg), List.getElem?_eq_getElem]

/-- Local triangle `k` stands for the serial triangle `t`. -/
theorem Setup.local_tri (s : Setup N epart tris user m d m') (width p k g : ℕ) (hk : (ids d m' width p)[k]? = some g) :
    ∃ a b c x y z, (localOf d m' (ghostsOf d m' width) p).tris[k]? = some (a, b, c) ∧ tris[old epart g]? = some (x, y, z) ∧
      (localOf d m' (ghostsOf d m' width) p).nodes[a]? = some x ∧ (localOf d m' (ghostsOf d m' width) p).nodes[b]? = some y ∧
      (localOf d m' (ghostsOf d m' width) p).nodes[c]? = some z := by
  have hg := List.mem_of_getElem? hk
  refine ⟨_, _, _, _, _, _, ?_, s.tri_getD g (s.ids_lt width p g hg), s.node_back width p g _ hg (Or.inl rfl),
    s.node_back width p g _ hg (Or.inr (Or.inl rfl)), s.node_back width p g _ hg (Or.inr (Or.inr rfl))⟩
  rw [s.local_tris, List.getElem?_map, hk]
  rfl

/-! ## boundary -/

theorem mem_ghostBoundary (nb : ℕ × ℕ → ℤ) (b : BDict) (lo up : ℕ) (gs : List ℕ) (y : (ℕ × ℕ) × String) :
    y ∈ ghostBoundary nb b lo up gs ↔ y.1.1 ∈ gs ∧ y.1.2 < 3 ∧ outside lo up (nb y.1) = true ∧
      nb y.1 ∉ gs.map (fun x : ℕ => (x : ℤ)) ∧ y.2 = (b.lookup y.1).getD "ghost" := by
  unfold ghostBoundary
  simp only [List.mem_flatMap, List.mem_range, List.mem_map, List.mem_filter, decide_eq_true_eq]
  constructor
  · rintro ⟨e, he, g, ⟨⟨hg, ho⟩, hn⟩, rfl⟩
    exact ⟨hg, he, ho, hn, rfl⟩
  · rintro ⟨hg, he, ho, hn, ht⟩
    refine ⟨y.1.2, he, y.1.1, ⟨⟨hg, ho⟩, hn⟩, ?_⟩
    obtain ⟨⟨y1, y2⟩, y3⟩ := y
    simp only at ht ⊢
    rw [ht]

theorem ghostBoundary_keys (nb : ℕ × ℕ → ℤ) (b : BDict) (lo up : ℕ) (gs : List ℕ) (hn : gs.Nodup) :
    ((ghostBoundary nb b lo up gs).map Prod.fst).Nodup := by
  unfold ghostBoundary
  rw [List.map_flatMap]
  simp only [List.map_map]
  rw [List.nodup_flatMap]
  constructor
  · intro e _
    refine ((hn.filter _).filter _).map_on ?_
    intro x _ y _ h
    exact congrArg (fun z : ℕ × ℕ => z.1) h
  · refine List.nodup_range.imp ?_
    intro e e' hne
    simp only [Function.onFun, List.disjoint_left, List.mem_map]
    rintro a ⟨x, _, rfl⟩ ⟨y, _, hy⟩
    exact hne (congrArg (fun z : ℕ × ℕ => z.2) hy).symm

theorem fullBoundary_lookup (b : BDict) (hb : (b.map Prod.fst).Nodup) (lo up x e : ℕ) (tag : String) :
    (fullBoundary b lo up).lookup (x, e) = some tag ↔ (lo ≤ x ∧ x < up) ∧ b.lookup (x, e) = some tag := by
  have hn : ((fullBoundary b lo up).map Prod.fst).Nodup := hb.sublist (List.Sublist.map _ List.filter_sublist)
  rw [Verif.Mesh.lookup_eq_some_iff _ hn, Verif.Mesh.lookup_eq_some_iff _ hb]
  unfold fullBoundary
  rw [List.mem_filter]
  simp only [decide_eq_true_eq]
  tauto

/-- The dictionary of local boundary edges in new numbers. -/
theorem boundaries_lookup (nb : ℕ × ℕ → ℤ) (b : BDict) (hb : (b.map Prod.fst).Nodup) (lo up : ℕ) (gs : List ℕ)
    (hn : gs.Nodup) (hg : ∀ x ∈ gs, x < lo ∨ up ≤ x) :
    (((ghostBoundary nb b lo up gs).foldl (fun b x => dictSet b x.1 x.2) (fullBoundary b lo up)).map Prod.fst).Nodup ∧
    ∀ x e tag, ((ghostBoundary nb b lo up gs).foldl (fun b x => dictSet b x.1 x.2) (fullBoundary b lo up)).lookup (x, e) = some tag ↔
      ((lo ≤ x ∧ x < up) ∧ b.lookup (x, e) = some tag) ∨
      (x ∈ gs ∧ e < 3 ∧ outside lo up (nb (x, e)) = true ∧ nb (x, e) ∉ gs.map (fun x : ℕ => (x : ℤ)) ∧
        tag = (b.lookup (x, e)).getD "ghost") := by
  have hf : ((fullBoundary b lo up).map Prod.fst).Nodup := hb.sublist (List.Sublist.map _ List.filter_sublist)
  obtain ⟨h1, h2⟩ := fold_dictSet Prod.fst Prod.snd (ghostBoundary nb b lo up gs) (fullBoundary b lo up) hf
    (ghostBoundary_keys nb b lo up gs hn)
  refine ⟨h1, ?_⟩
  intro x e tag
  rw [h2, fullBoundary_lookup b hb]
  constructor
  · rintro (⟨y, hy, hk, ht⟩ | ⟨_, h⟩)
    · have := (mem_ghostBoundary nb b lo up gs y).mp hy
      rw [hk, ht] at this
      exact Or.inr this
    · exact Or.inl h
  · rintro (h | h)
    · refine Or.inr ⟨?_, h⟩
      intro y hy hk
      have := ((mem_ghostBoundary nb b lo up gs y).mp hy).1
      rw [hk] at this
      have := hg x this
      omega
    · exact Or.inl ⟨((x, e), tag), (mem_ghostBoundary nb b lo up gs _).mpr h, rfl, rfl⟩

theorem Setup.boundary_nodup (s : Setup N epart tris user m d m') : (m'.boundary.map Prod.fst).Nodup :=
  (serial_boundary_keys (divide_boundary_nodup s.hu s.hm s.hlen s.hd) s.hm').1

theorem Setup.local_boundary_raw (s : Setup N epart tris user m d m') (width p : ℕ) :
    ((localOf d m' (ghostsOf d m' width) p).boundary.map Prod.fst).Nodup ∧
    ∀ k e tag, (localOf d m' (ghostsOf d m' width) p).boundary.lookup (k, e) = some tag ↔
      ∃ x, (ids d m' width p)[k]? = some x ∧
        (((procSum d.tpp p ≤ x ∧ x < procSum d.tpp (p + 1)) ∧ m'.boundary.lookup (x, e) = some tag) ∨
         (x ∈ ghostsOf d m' width p ∧ e < 3 ∧
          outside (procSum d.tpp p) (procSum d.tpp (p + 1)) (m'.enum.neighbours (x, e)) = true ∧
          m'.enum.neighbours (x, e) ∉ (ghostsOf d m' width p).map (fun x : ℕ => (x : ℤ)) ∧
          tag = (m'.boundary.lookup (x, e)).getD "ghost")) := by
  obtain ⟨b1, b2⟩ := boundaries_lookup m'.enum.neighbours m'.boundary s.boundary_nodup (procSum d.tpp p)
    (procSum d.tpp (p + 1)) (ghostsOf d m' width p) ((ghostIds_sorted _ _ _ _).imp (fun h => h.ne))
    (fun x hx => s.ghosts_outside width p x hx)
  generalize hB : (ghostBoundary m'.enum.neighbours m'.boundary (procSum d.tpp p) (procSum d.tpp (p + 1))
    (ghostsOf d m' width p)).foldl (fun b x => dictSet b x.1 x.2) (fullBoundary m'.boundary (procSum d.tpp p)
      (procSum d.tpp (p + 1))) = B at b1 b2
  have hloc : (localOf d m' (ghostsOf d m' width) p).boundary =
      B.foldl (fun b x => dictSet b (at' (triMap (procSum d.tpp p) (procSum d.tpp (p + 1)) (ghostsOf d m' width p)) x.1.1, x.1.2) x.2)
        [] := by
    rw [← hB]; rfl
  -- keys are local triangles
  have hkeys : ∀ y ∈ B, ∃ k : ℕ, (ids d m' width p)[k]? = some y.1.1 := by
    intro y hy
    have := (Verif.Mesh.lookup_eq_some_iff B b1 y.1 y.2).mpr hy
    have hmem : y.1.1 ∈ ids d m' width p := by
      unfold ids
      rw [List.mem_append, mem_fullIds]
      rcases (b2 y.1.1 y.1.2 y.2).mp this with h | h
      · exact Or.inl h.1
      · exact Or.inr h.1
    exact List.mem_iff_getElem?.mp hmem
  have hnum := s.numbers width p
  obtain ⟨f1, f2⟩ := fold_dictSet
    (fun x : (ℕ × ℕ) × String => (at' (triMap (procSum d.tpp p) (procSum d.tpp (p + 1)) (ghostsOf d m' width p)) x.1.1, x.1.2))
    Prod.snd B [] (by simp) (by
      have hc : (fun x : (ℕ × ℕ) × String =>
          (at' (triMap (procSum d.tpp p) (procSum d.tpp (p + 1)) (ghostsOf d m' width p)) x.1.1, x.1.2)) =
        (fun z : ℕ × ℕ => (at' (triMap (procSum d.tpp p) (procSum d.tpp (p + 1)) (ghostsOf d m' width p)) z.1, z.2)) ∘ Prod.fst := rfl
      rw [hc, ← List.map_map]
      refine List.Nodup.map_on ?_ b1
      intro a ha b hb hab
      obtain ⟨a', ha', rfl⟩ := List.mem_map.mp ha
      obtain ⟨b', hb', rfl⟩ := List.mem_map.mp hb
      obtain ⟨k, hk⟩ := hkeys a' ha'
      obtain ⟨l, hl⟩ := hkeys b' hb'
      simp only [Prod.mk.injEq] at hab
      rw [hnum.at hk, hnum.at hl] at hab
      obtain ⟨rfl, h2⟩ := hab
      rw [hk] at hl
      exact Prod.ext (Option.some.inj hl) h2)
  rw [hloc]
  refine ⟨f1, ?_⟩
  intro k e tag
  rw [f2]
  constructor
  · rintro (⟨y, hy, hk, ht⟩ | ⟨_, h⟩)
    · obtain ⟨l, hl⟩ := hkeys y hy
      simp only [Prod.mk.injEq] at hk
      rw [hnum.at hl] at hk
      obtain ⟨rfl, rfl⟩ := hk
      refine ⟨y.1.1, hl, (b2 _ _ _).mp ?_⟩
      rw [Verif.Mesh.lookup_eq_some_iff B b1, ← ht]
      exact hy
    · cases h
  · rintro ⟨x, hx, h⟩
    have hy := (Verif.Mesh.lookup_eq_some_iff B b1 _ _).mp ((b2 x e tag).mpr h)
    refine Or.inl ⟨((x, e), tag), hy, ?_, rfl⟩
    simp only [Prod.mk.injEq, and_true]
    exact hnum.at hx

end

end Verif.Par
