import Verif.Par.LemmasComm

/-!
# Distribution over processors: C65 (renumbering), C66 (ghost layers), C67 (local meshes), C68 (exchange)
-/

namespace Verif.Par

open Verif.Mesh (Tri BDict MeshData MeshErr buildMesh DirEdge Conforming Across)

variable {N width : ℕ} {epart : List ℕ} {tris : List Tri} {user : BDict} {m : MeshData} {parts : List Local}

theorem parts_get {d : Division} {m' : MeshData} (hp : parts = (List.range N).map (localOf d m' (ghostsOf d m' width))) (p : ℕ) (a : Local) :
    parts[p]? = some a ↔ p < N ∧ a = localOf d m' (ghostsOf d m' width) p := by
  subst hp
  rw [List.getElem?_map]
  by_cases h : p < N
  · rw [List.getElem?_range h]
    simp [h, eq_comm]
  · rw [List.getElem?_eq_none (by simpa using h)]
    simp [h]

/-! ## C65 -/

/-- C65: the mesh is distributed exactly when every processor, and no other, is given some triangle. -/
theorem C65_accepted (hu : (user.map Prod.fst).Nodup) (hm : buildMesh tris user = .ok m) (hlen : epart.length = tris.length) :
    (∃ parts, distribute N width epart tris m.boundary = .ok parts) ↔ (∀ x ∈ epart, x < N) ∧ ∀ p < N, p ∈ epart := by
  constructor
  · rintro ⟨parts, h⟩
    obtain ⟨d, m', s, _⟩ := distribute_ok hu hm hlen h
    obtain ⟨h1, _, _, _, h5, h6⟩ := divide_ok s.hd
    rw [h1] at h5 h6
    constructor
    · intro x hx
      rw [← h5]
      exact bincount_length epart x hx
    · intro p hp
      have hc := bincount_getD epart p
      rw [List.getD_eq_getElem _ _ (by omega)] at hc
      have := h6 _ (List.getElem_mem (l := bincount epart) (n := p) (by omega))
      rw [hc] at this
      exact List.count_pos_iff.mp this
  · rintro ⟨h1, h2⟩
    have hN : (bincount epart).length = N := by
      unfold bincount
      split
      · rename_i he
        subst he
        cases N with
        | zero => rfl
        | succ n => exact absurd (h2 0 (Nat.succ_pos n)) (by simp)
      · rename_i he
        rw [List.length_map, List.length_range]
        have := h1 _ (foldr_max_mem epart he)
        rcases Nat.lt_or_ge (epart.foldr max 0 + 1) N with hlt | hge
        · have := le_foldr_max epart _ (h2 _ hlt)
          omega
        · omega
    have hpos : (bincount epart).all (fun n => decide (0 < n)) = true := by
      rw [List.all_eq_true]
      intro n hn
      obtain ⟨p, hp, rfl⟩ := List.getElem_of_mem hn
      have hc := bincount_getD epart p
      rw [List.getD_eq_getElem _ _ hp] at hc
      rw [hc]
      simpa using List.count_pos_iff.mpr (h2 p (by omega))
    unfold distribute
    have hd : ∃ d, divide N epart tris m.boundary = .ok d := by
      unfold divide
      simp only [hpos, hN, if_true]
      exact ⟨_, rfl⟩
    obtain ⟨d, hd⟩ := hd
    obtain ⟨m', hm'⟩ := divide_mesh hu hm hlen hd
    rw [hd]
    simp only [hm']
    exact ⟨_, rfl⟩

/-- C65: there is one part for each processor. -/
theorem C65_parts (hu : (user.map Prod.fst).Nodup) (hm : buildMesh tris user = .ok m) (hlen : epart.length = tris.length)
    (h : distribute N width epart tris m.boundary = .ok parts) : parts.length = N := by
  obtain ⟨d, m', s, hp⟩ := distribute_ok hu hm hlen h
  rw [hp]; simp

/-- C65: every triangle of the serial mesh is a full triangle at exactly one place, on the processor it was given to. -/
theorem C65_every_triangle_owned_once (hu : (user.map Prod.fst).Nodup) (hm : buildMesh tris user = .ok m)
    (hlen : epart.length = tris.length) (h : distribute N width epart tris m.boundary = .ok parts) (t : ℕ) (ht : t < tris.length) :
    (∃! x : ℕ × ℕ, ∃ a, parts[x.1]? = some a ∧ x.2 < a.nFull ∧ a.triL2g[x.2]? = some t) ∧
    ∀ p k a, parts[p]? = some a → k < a.nFull → a.triL2g[k]? = some t → p = epart.getD t 0 := by
  obtain ⟨d, m', s, hp⟩ := distribute_ok hu hm hlen h
  have hN : d.tpp.length = N := (divide_ok s.hd).2.2.2.2.1
  have key : ∀ p k a, parts[p]? = some a → k < a.nFull → a.triL2g[k]? = some t →
      p = epart.getD t 0 ∧ k + procSum d.tpp p = pos epart t := by
    intro p k a ha hk hkt
    obtain ⟨hpN, rfl⟩ := (parts_get hp p a).mp ha
    have hk' : k < procSum d.tpp (p + 1) - procSum d.tpp p := hk
    rw [s.triL2g, List.getElem?_map] at hkt
    unfold ids at hkt
    rw [List.getElem?_append_left (by rw [fullIds_length]; exact hk')] at hkt
    unfold fullIds at hkt
    rw [List.getElem?_range' hk', Option.map_some, Option.some.injEq] at hkt
    have hmem := (s.own_iff p (procSum d.tpp p + 1 * k)).mp (by rw [mem_fullIds]; omega)
    rw [hkt] at hmem
    refine ⟨hmem.2.symm, ?_⟩
    have := pos_old epart _ hmem.1
    rw [hkt] at this
    omega
  have hq := pos_spec epart t (by omega)
  have hmem := (s.own_iff (epart.getD t 0) (pos epart t)).mpr ⟨hq.1, by rw [hq.2]⟩
  rw [mem_fullIds] at hmem
  have hpN : epart.getD t 0 < N := by
    rw [← hN, (divide_ok s.hd).1]
    apply bincount_length
    rw [List.getD_eq_getElem _ _ (by omega)]
    exact List.getElem_mem _
  refine ⟨⟨(epart.getD t 0, pos epart t - procSum d.tpp (epart.getD t 0)), ⟨_, (parts_get hp _ _).mpr ⟨hpN, rfl⟩, ?_, ?_⟩, ?_⟩,
    fun p k a h1 h2 h3 => (key p k a h1 h2 h3).1⟩
  · show pos epart t - procSum d.tpp (epart.getD t 0) < procSum d.tpp (epart.getD t 0 + 1) - procSum d.tpp (epart.getD t 0)
    omega
  · simp only
    rw [s.triL2g, List.getElem?_map]
    unfold ids
    rw [List.getElem?_append_left (by rw [fullIds_length]; omega)]
    unfold fullIds
    rw [List.getElem?_range' (by omega), Option.map_some]
    rw [show procSum d.tpp (epart.getD t 0) + 1 * (pos epart t - procSum d.tpp (epart.getD t 0)) = pos epart t by omega, hq.2]
  · rintro ⟨p, k⟩ ⟨a, h1, h2, h3⟩
    obtain ⟨e1, e2⟩ := key p k a h1 h2 h3
    subst e1
    simp only [Prod.mk.injEq, true_and]
    omega

/-- C65: the full triangles of a processor come first and keep the order they have in the serial mesh. -/
theorem C65_serial_order (hu : (user.map Prod.fst).Nodup) (hm : buildMesh tris user = .ok m)
    (hlen : epart.length = tris.length) (h : distribute N width epart tris m.boundary = .ok parts) (p i j t u : ℕ) (a : Local)
    (ha : parts[p]? = some a) (hij : i < j) (hj : j < a.nFull) (hi : a.triL2g[i]? = some t) (hu' : a.triL2g[j]? = some u) : t < u := by
  obtain ⟨d, m', s, hp⟩ := distribute_ok hu hm hlen h
  obtain ⟨hpN, rfl⟩ := (parts_get hp p a).mp ha
  have hj' : j < procSum d.tpp (p + 1) - procSum d.tpp p := hj
  have get : ∀ k, k < procSum d.tpp (p + 1) - procSum d.tpp p →
      (localOf d m' (ghostsOf d m' width) p).triL2g[k]? = some (old epart (procSum d.tpp p + k)) := by
    intro k hk
    rw [s.triL2g, List.getElem?_map]
    unfold ids
    rw [List.getElem?_append_left (by rw [fullIds_length]; exact hk)]
    unfold fullIds
    rw [List.getElem?_range' hk, Option.map_some, Nat.one_mul]
  rw [get i (by omega)] at hi
  rw [get j hj'] at hu'
  cases hi
  cases hu'
  have hle := s.upper_le (p + 1)
  have o1 := ((s.own_iff p (procSum d.tpp p + i)).mp (by rw [mem_fullIds]; omega)).2
  have o2 := ((s.own_iff p (procSum d.tpp p + j)).mp (by rw [mem_fullIds]; omega)).2
  exact order_stable epart _ _ (by omega) (by omega) (o1.trans o2.symm)

/-- C65: every local triangle is a copy of the serial triangle recorded for it (corner by corner, through the recorded node
numbers), its quantities are taken from the row of that triangle, no node is stored twice, and every stored node is used. -/
theorem C65_local_copies (hu : (user.map Prod.fst).Nodup) (hm : buildMesh tris user = .ok m)
    (hlen : epart.length = tris.length) (h : distribute N width epart tris m.boundary = .ok parts) (p : ℕ) (a : Local)
    (ha : parts[p]? = some a) :
    a.triL2g.length = a.tris.length ∧ a.rows = a.triL2g ∧ a.nodeL2g = a.nodes ∧ a.nodes.Nodup ∧
    (∀ k t : ℕ, a.triL2g[k]? = some t → ∃ n0 n1 n2 x y z, a.tris[k]? = some (n0, n1, n2) ∧ tris[t]? = some (x, y, z) ∧
      a.nodes[n0]? = some x ∧ a.nodes[n1]? = some y ∧ a.nodes[n2]? = some z) ∧
    ∀ i < a.nodes.length, ∃ tri ∈ a.tris, i = tri.1 ∨ i = tri.2.1 ∨ i = tri.2.2 := by
  obtain ⟨d, m', s, hp⟩ := distribute_ok hu hm hlen h
  obtain ⟨hpN, rfl⟩ := (parts_get hp p a).mp ha
  refine ⟨by rw [s.triL2g, s.local_tris, List.length_map, List.length_map], ?_, s.nodeL2g width p, s.nodes_nodup width p, ?_, ?_⟩
  · rw [s.triL2g]
    show localRows d (ghostsOf d m' width p) p (fun t => t) = _
    unfold localRows ids reorder
    rw [List.map_append, (divide_ok s.hd).2.1]
    rfl
  · intro k t hk
    rw [s.triL2g, List.getElem?_map] at hk
    cases hg : (ids d m' width p)[k]? with
    | none => rw [hg] at hk; cases hk
    | some g =>
      rw [hg, Option.map_some, Option.some.injEq] at hk
      subst hk
      exact s.local_tri width p k g hg
  · intro i hi
    have hmem := List.getElem_mem hi
    obtain ⟨g, hg, hx⟩ := (s.mem_nodes width p _).mp hmem
    refine ⟨_, by rw [s.local_tris]; exact List.mem_map_of_mem hg, ?_⟩
    have hat := (s.nodes_numbers width p).at (List.getElem?_eq_getElem hi)
    rcases hx with hx | hx | hx
    · left; simp only; rw [← hx, hat]
    · right; left; simp only; rw [← hx, hat]
    · right; right; simp only; rw [← hx, hat]

/-! ## C66 -/

theorem within_congr {tris : List Tri} {c c' : ℕ → ℕ → Prop} {S : ℕ → Prop} (hc : ∀ t e u j, Across tris t e u j → (c t e ↔ c' t e))
    {n t : ℕ} (h : Within tris c S n t) : Within tris c' S n t := by
  induction h with
  | start h1 h2 => exact .start h1 h2
  | stay _ ih => exact .stay ih
  | step _ ha hn ih => exact .step ih ha (fun h => hn ((hc _ _ _ _ ha).mpr h))

theorem tagged_iff_user (hu : (user.map Prod.fst).Nodup) (hm : buildMesh tris user = .ok m) (t e u j : ℕ)
    (ha : Across tris t e u j) : Tagged m t e ↔ ∃ tag, ((t, e), tag) ∈ user := by
  unfold Tagged
  rw [Option.isSome_iff_exists]
  constructor
  · rintro ⟨tag, h⟩
    rcases (Verif.Mesh.C07_tags tris user hu m hm t e tag).mp h with h | ⟨_, _, _, h, _⟩
    · exact ⟨tag, h⟩
    · exact absurd ⟨u, j, ha⟩ h
  · rintro ⟨tag, h⟩
    exact ⟨tag, (Verif.Mesh.C07_tags tris user hu m hm t e tag).mpr (Or.inl h)⟩

/-- C66: a processor holds exactly the triangles reached from its own by crossing at most `width` edges (one, if a width of zero
is asked for), each once; edges tagged by the user are not crossed. -/
theorem C66_layers (hu : (user.map Prod.fst).Nodup) (hm : buildMesh tris user = .ok m)
    (hlen : epart.length = tris.length) (h : distribute N width epart tris m.boundary = .ok parts) (p : ℕ) (a : Local)
    (ha : parts[p]? = some a) :
    a.triL2g.Nodup ∧ ∀ t, t ∈ a.triL2g ↔
      Within tris (fun t e => ∃ tag, ((t, e), tag) ∈ user) (fun t => epart.getD t 0 = p) (max width 1) t := by
  obtain ⟨d, m', s, hp⟩ := distribute_ok hu hm hlen h
  obtain ⟨hpN, rfl⟩ := (parts_get hp p a).mp ha
  rw [s.triL2g]
  constructor
  · refine List.Nodup.map_on ?_ (s.ids_nodup width p)
    intro x hx y hy hxy
    exact old_inj epart x y (s.ids_lt width p x hx) (s.ids_lt width p y hy) hxy
  · intro t
    rw [List.mem_map]
    have hc := tagged_iff_user hu hm
    constructor
    · rintro ⟨x, hx, rfl⟩
      exact within_congr hc ((s.mem_ids width p x).mp hx).2
    · intro hw
      have hw' := within_congr (fun t e u j ha => (hc t e u j ha).symm) hw
      obtain ⟨x, hx, rfl⟩ := old_surj epart t (by rw [hlen]; exact hw.lt)
      exact ⟨x, (s.mem_ids width p x).mpr ⟨hx, hw'⟩, rfl⟩

/-! ## C67 -/

section Setup

variable {d : Division} {m' : MeshData}

theorem Setup.local_dirEdge (s : Setup N epart tris user m d m') (width p k e : ℕ) (g x y : ℕ) (hk : (ids d m' width p)[k]? = some g) :
    DirEdge tris (old epart g) e x y ↔ ∃ a b, DirEdge (localOf d m' (ghostsOf d m' width) p).tris k e a b ∧
      (localOf d m' (ghostsOf d m' width) p).nodes[a]? = some x ∧ (localOf d m' (ghostsOf d m' width) p).nodes[b]? = some y := by
  obtain ⟨a, b, c, x', y', z', h1, h2, h3, h4, h5⟩ := s.local_tri width p k g hk
  unfold DirEdge
  constructor
  · rintro ⟨n0, n1, n2, ht, hh⟩
    rw [h2] at ht
    simp only [Option.some.injEq, Prod.mk.injEq] at ht
    obtain ⟨rfl, rfl, rfl⟩ := ht
    rcases hh with ⟨rfl, rfl, rfl⟩ | ⟨rfl, rfl, rfl⟩ | ⟨rfl, rfl, rfl⟩
    · exact ⟨b, c, ⟨a, b, c, h1, by simp⟩, h4, h5⟩
    · exact ⟨c, a, ⟨a, b, c, h1, by simp⟩, h5, h3⟩
    · exact ⟨a, b, ⟨a, b, c, h1, by simp⟩, h3, h4⟩
  · rintro ⟨u, v, ⟨n0, n1, n2, ht, hh⟩, hx, hy⟩
    rw [h1] at ht
    simp only [Option.some.injEq, Prod.mk.injEq] at ht
    obtain ⟨rfl, rfl, rfl⟩ := ht
    refine ⟨x', y', z', h2, ?_⟩
    rcases hh with ⟨rfl, rfl, rfl⟩ | ⟨rfl, rfl, rfl⟩ | ⟨rfl, rfl, rfl⟩
    · rw [h4] at hx; rw [h5] at hy; cases hx; cases hy; simp
    · rw [h5] at hx; rw [h3] at hy; cases hx; cases hy; simp
    · rw [h3] at hx; rw [h4] at hy; cases hx; cases hy; simp

theorem Setup.local_get (s : Setup N epart tris user m d m') (width p k e a b : ℕ)
    (h : DirEdge (localOf d m' (ghostsOf d m' width) p).tris k e a b) :
    ∃ g x y, (ids d m' width p)[k]? = some g ∧ (localOf d m' (ghostsOf d m' width) p).nodes[a]? = some x ∧
      (localOf d m' (ghostsOf d m' width) p).nodes[b]? = some y := by
  have h' := h
  obtain ⟨n0, n1, n2, ht, hh⟩ := h
  have hk : k < (ids d m' width p).length := by
    have := (List.getElem?_eq_some_iff.mp ht).1
    rw [s.local_tris, List.length_map] at this
    exact this
  obtain ⟨a', b', c', x', y', z', h1, h2, h3, h4, h5⟩ := s.local_tri width p k _ (List.getElem?_eq_getElem hk)
  rw [h1] at ht
  simp only [Option.some.injEq, Prod.mk.injEq] at ht
  obtain ⟨rfl, rfl, rfl⟩ := ht
  refine ⟨(ids d m' width p)[k], ?_⟩
  rcases hh with ⟨rfl, rfl, rfl⟩ | ⟨rfl, rfl, rfl⟩ | ⟨rfl, rfl, rfl⟩
  · exact ⟨y', z', List.getElem?_eq_getElem hk, h4, h5⟩
  · exact ⟨z', x', List.getElem?_eq_getElem hk, h5, h3⟩
  · exact ⟨x', y', List.getElem?_eq_getElem hk, h3, h4⟩

theorem Setup.node_inj (s : Setup N epart tris user m d m') (width p a b x : ℕ)
    (ha : (localOf d m' (ghostsOf d m' width) p).nodes[a]? = some x) (hb : (localOf d m' (ghostsOf d m' width) p).nodes[b]? = some x) :
    a = b := by
  rw [← (s.nodes_numbers width p).at ha, ← (s.nodes_numbers width p).at hb]

theorem Setup.local_across (s : Setup N epart tris user m d m') (width p k e l j g g' : ℕ) (hk : (ids d m' width p)[k]? = some g)
    (hl : (ids d m' width p)[l]? = some g') :
    Across (localOf d m' (ghostsOf d m' width) p).tris k e l j ↔ Across tris (old epart g) e (old epart g') j := by
  constructor
  · rintro ⟨a, b, h1, h2⟩
    obtain ⟨g1, x, y, q1, q2, q3⟩ := s.local_get width p k e a b h1
    exact ⟨x, y, (s.local_dirEdge width p k e g x y hk).mpr ⟨a, b, h1, q2, q3⟩,
      (s.local_dirEdge width p l j g' y x hl).mpr ⟨b, a, h2, q3, q2⟩⟩
  · rintro ⟨x, y, h1, h2⟩
    obtain ⟨a, b, h3, h4, h5⟩ := (s.local_dirEdge width p k e g x y hk).mp h1
    obtain ⟨b', a', h6, h7, h8⟩ := (s.local_dirEdge width p l j g' y x hl).mp h2
    obtain rfl := s.node_inj width p _ _ _ h5 h7
    obtain rfl := s.node_inj width p _ _ _ h4 h8
    exact ⟨a, b, h3, h6⟩

theorem Setup.local_conforming (s : Setup N epart tris user m d m') (width p : ℕ) :
    Conforming (localOf d m' (ghostsOf d m' width) p).tris := by
  intro k e k' e' a b h1 h2
  obtain ⟨g, x, y, q1, q2, q3⟩ := s.local_get width p k e a b h1
  obtain ⟨g', x', y', r1, r2, r3⟩ := s.local_get width p k' e' a b h2
  rw [q2] at r2
  rw [q3] at r3
  cases r2
  cases r3
  have e1 := (s.local_dirEdge width p k e g x y q1).mpr ⟨a, b, h1, q2, q3⟩
  have e2 := (s.local_dirEdge width p k' e' g' x y r1).mpr ⟨a, b, h2, q2, q3⟩
  obtain ⟨hh, he⟩ := Verif.Mesh.conforming_of_build (Verif.Mesh.buildMesh_ok s.hm).1 _ _ _ _ _ _ e1 e2
  have hgg := old_inj epart g g' (s.ids_lt width p g (List.mem_of_getElem? q1)) (s.ids_lt width p g' (List.mem_of_getElem? r1)) hh
  subst hgg
  refine ⟨?_, he⟩
  rw [← (s.numbers width p).at q1, ← (s.numbers width p).at r1]

theorem Setup.serial_neighbours (s : Setup N epart tris user m d m') (t e u : ℕ) :
    m.enum.neighbours (t, e) = (u : ℤ) ↔ (∃ j, Across tris t e u j) ∧ m.boundary.lookup (t, e) = none := by
  obtain ⟨_, _, c3, _, c5⟩ := Verif.Mesh.C07_enumeration_bijective tris user s.hu m s.hm
  obtain ⟨h1, _, _⟩ := Verif.Mesh.buildMesh_ok s.hm
  cases hl : m.boundary.lookup (t, e) with
  | some tag =>
    obtain ⟨j, _, _, _, _, hj⟩ := c3 t e tag hl
    constructor
    · intro h; omega
    · rintro ⟨_, hn⟩; cases hn
  | none =>
    rw [(c5 _ hl).2]
    rcases Verif.Mesh.nbr_cases tris m.nbr h1 t e with ⟨l', j', ha, e1, e2⟩ | ⟨hno, e1, _⟩
    · constructor
      · intro h
        have : u = l' := by omega
        subst this
        exact ⟨⟨j', ha⟩, rfl⟩
      · rintro ⟨⟨j, hj⟩, _⟩
        obtain ⟨rfl, _⟩ := Verif.Mesh.across_unique tris (Verif.Mesh.conforming_of_build h1) ha hj
        exact e1
    · constructor
      · intro h; omega
      · rintro ⟨⟨j, hj⟩, _⟩; exact absurd hj (hno u j)

theorem Setup.serial_vs_new (s : Setup N epart tris user m d m') (x e y : ℕ) (hx : x < epart.length) (hy : y < epart.length) :
    m'.enum.neighbours (x, e) = (y : ℤ) ↔ m.enum.neighbours (old epart x, e) = (old epart y : ℤ) := by
  rw [s.neighbours, s.serial_neighbours]
  constructor
  · rintro ⟨_, _, h1, h2⟩; exact ⟨h1, h2⟩
  · rintro ⟨h1, h2⟩; exact ⟨hx, hy, h1, h2⟩

/-- Every edge is either tagged or has a triangle behind it. -/
theorem Setup.tag_or_neighbour (s : Setup N epart tris user m d m') (t e : ℕ) (ht : t < tris.length) (he : e < 3) :
    (∃ tag, m.boundary.lookup (t, e) = some tag) ∨ (m.boundary.lookup (t, e) = none ∧ ∃ u : ℕ, m.enum.neighbours (t, e) = (u : ℤ)) := by
  cases hl : m.boundary.lookup (t, e) with
  | some tag => exact Or.inl ⟨tag, rfl⟩
  | none =>
    right
    refine ⟨rfl, ?_⟩
    by_cases ha : ∃ u j, Across tris t e u j
    · obtain ⟨u, j, ha⟩ := ha
      exact ⟨u, (s.serial_neighbours t e u).mpr ⟨⟨j, ha⟩, hl⟩⟩
    · exfalso
      by_cases hu : ∃ tag, ((t, e), tag) ∈ user
      · obtain ⟨tag, hu⟩ := hu
        rw [(Verif.Mesh.C07_tags tris user s.hu m s.hm t e tag).mpr (Or.inl hu)] at hl
        cases hl
      · rw [(Verif.Mesh.C07_tags tris user s.hu m s.hm t e "exterior").mpr
          (Or.inr ⟨fun x hx => hu ⟨x, hx⟩, ht, he, ha, rfl⟩)] at hl
        cases hl

/-- Neighbours of own triangles are local. -/
theorem Setup.own_neighbour (s : Setup N epart tris user m d m') (width p x e u : ℕ)
    (hx : x ∈ fullIds (procSum d.tpp p) (procSum d.tpp (p + 1))) (h : m.enum.neighbours (old epart x, e) = (u : ℤ)) :
    ∃ y ∈ ids d m' width p, u = old epart y := by
  obtain ⟨hxl, hxo⟩ := (s.own_iff p x).mp hx
  obtain ⟨⟨j, hj⟩, hn⟩ := (s.serial_neighbours _ _ _).mp h
  obtain ⟨y, hy, rfl⟩ := old_surj epart u (by rw [s.hlen]; exact (across_edge hj).2.1)
  refine ⟨y, (s.mem_ids width p y).mpr ⟨hy, ?_⟩, rfl⟩
  have h0 : Within tris (Tagged m) (fun t => epart.getD t 0 = p) 0 (old epart x) :=
    .start (by rw [← s.hlen]; exact old_lt epart x hxl) hxo
  have h1 : Within tris (Tagged m) (fun t => epart.getD t 0 = p) 1 (old epart y) := .step h0 hj (by simp [Tagged, hn])
  have : ∀ n, Within tris (Tagged m) (fun t => epart.getD t 0 = p) (n + 1) (old epart y) := by
    intro n
    induction n with
    | zero => exact h1
    | succ n ih => exact .stay ih
  rw [show max width 1 = (max width 1 - 1) + 1 by omega]
  exact this _

/-- Tags handed to the local mesh. -/
theorem Setup.local_tags (s : Setup N epart tris user m d m') (width p k e g : ℕ) (tag : String)
    (hk : (ids d m' width p)[k]? = some g) :
    (localOf d m' (ghostsOf d m' width) p).boundary.lookup (k, e) = some tag ↔
      m.boundary.lookup (old epart g, e) = some tag ∨
      (tag = "ghost" ∧ ∃ u : ℕ, m.enum.neighbours (old epart g, e) = (u : ℤ) ∧ ∀ y ∈ ids d m' width p, u ≠ old epart y) := by
  rw [(s.local_boundary_raw width p).2]
  have hgm := List.mem_of_getElem? hk
  have hgl := s.ids_lt width p g hgm
  have hlk : ∀ t, m'.boundary.lookup (g, e) = some t ↔ m.boundary.lookup (old epart g, e) = some t := by
    intro t
    rw [s.boundary]
    simp [hgl]
  have hlk' : m'.boundary.lookup (g, e) = m.boundary.lookup (old epart g, e) := by
    apply Option.ext
    intro t
    exact hlk t
  -- a neighbour number is that of a local triangle
  have hloc : ∀ y, y ∈ ids d m' width p → (outside (procSum d.tpp p) (procSum d.tpp (p + 1)) (y : ℤ) = true ∧
      (y : ℤ) ∉ (ghostsOf d m' width p).map (fun x : ℕ => (x : ℤ))) → False := by
    intro y hy ⟨h1, h2⟩
    rw [outside_iff] at h1
    rcases List.mem_append.mp hy with h | h
    · rw [mem_fullIds] at h; omega
    · exact h2 (List.mem_map.mpr ⟨y, h, rfl⟩)
  constructor
  · rintro ⟨x, hx, hh⟩
    rw [hk] at hx
    cases hx
    rcases hh with ⟨_, hh⟩ | ⟨hgh, he, ho, hn, ht⟩
    · exact Or.inl ((hlk tag).mp hh)
    · rcases s.tag_or_neighbour (old epart g) e (by rw [← s.hlen]; exact old_lt epart g hgl) he with ⟨tag', h⟩ | ⟨h, u, hu⟩
      · left
        rw [h, ht, hlk', h]
        rfl
      · right
        rw [hlk', h] at ht
        refine ⟨ht, u, hu, ?_⟩
        rintro y hy rfl
        rw [← s.serial_vs_new g e y hgl (s.ids_lt width p y hy)] at hu
        rw [hu] at ho hn
        exact hloc y hy ⟨ho, hn⟩
  · intro hh
    refine ⟨g, hk, ?_⟩
    rcases List.mem_append.mp hgm with h | h
    · left
      refine ⟨(mem_fullIds _ _ _).mp h, ?_⟩
      rcases hh with hh | ⟨_, u, hu, hno⟩
      · exact (hlk tag).mpr hh
      · obtain ⟨y, hy, he⟩ := s.own_neighbour width p g e u h hu
        exact absurd he (hno y hy)
    · right
      rcases hh with hh | ⟨rfl, u, hu, hno⟩
      · have hneg : m'.enum.neighbours (g, e) < 0 := by
          obtain ⟨_, _, c3, _, _⟩ := Verif.Mesh.C07_enumeration_bijective d.tris d.boundary
            (divide_boundary_nodup s.hu s.hm s.hlen s.hd) m' s.hm'
          obtain ⟨j, _, _, _, _, hj⟩ := c3 g e tag ((hlk tag).mpr hh)
          omega
        have he3 := ((serial_boundary_keys s.hu s.hm).2 _
          ((Verif.Mesh.lookup_eq_some_iff _ (serial_boundary_keys s.hu s.hm).1 _ _).mp hh)).2
        refine ⟨h, he3, by rw [outside_iff]; left; omega, ?_, ?_⟩
        · rw [List.mem_map]
          rintro ⟨x, _, hx⟩
          omega
        · rw [hlk', hh]; rfl
      · obtain ⟨⟨j, hj⟩, hn⟩ := (s.serial_neighbours _ _ _).mp hu
        obtain ⟨y, hy, rfl⟩ := old_surj epart u (by rw [s.hlen]; exact (across_edge hj).2.1)
        have hyn : y ∉ ids d m' width p := fun hy' => hno y hy' rfl
        rw [← s.serial_vs_new g e y hgl hy] at hu
        refine ⟨h, (across_edge hj).2.2.1, ?_, ?_, ?_⟩
        · rw [hu, outside_iff]
          have : ¬ (procSum d.tpp p ≤ y ∧ y < procSum d.tpp (p + 1)) := by
            intro hc
            exact hyn (List.mem_append_left _ ((mem_fullIds _ _ _).mpr hc))
          omega
        · rw [hu, List.mem_map]
          rintro ⟨x, hx, hxe⟩
          have : x = y := by omega
          subst this
          exact hyn (List.mem_append_right _ hx)
        · rw [hlk', hn]; rfl

theorem Setup.local_mesh (s : Setup N epart tris user m d m') (width p : ℕ) :
    ∃ ml, buildMesh (localOf d m' (ghostsOf d m' width) p).tris (localOf d m' (ghostsOf d m' width) p).boundary = .ok ml := by
  obtain ⟨b1, b2⟩ := s.local_boundary_raw width p
  have hc := s.local_conforming width p
  have hbad : buildMesh (localOf d m' (ghostsOf d m' width) p).tris (localOf d m' (ghostsOf d m' width) p).boundary ≠
      .error .noSuchSegment := by
    rw [Ne, Verif.Mesh.C07_bad_segment_rejected]
    rintro ⟨_, ⟨⟨k, e⟩, tag⟩, hx, hn⟩
    apply hn
    have hlk := (Verif.Mesh.lookup_eq_some_iff _ b1 _ _).mpr hx
    obtain ⟨g, hg, _⟩ := (b2 k e tag).mp hlk
    have hkl := (List.getElem?_eq_some_iff.mp hg).1
    refine ⟨by rw [s.local_tris, List.length_map]; exact hkl, ?_⟩
    rcases (s.local_tags width p k e g tag hg).mp hlk with h | ⟨_, u, hu, _⟩
    · exact ((serial_boundary_keys s.hu s.hm).2 _
          ((Verif.Mesh.lookup_eq_some_iff _ (serial_boundary_keys s.hu s.hm).1 _ _).mp h)).2
    · obtain ⟨⟨j, hj⟩, _⟩ := (s.serial_neighbours _ _ _).mp hu
      exact (across_edge hj).2.2.1
  cases hb : Verif.Mesh.buildNeighbours (localOf d m' (ghostsOf d m' width) p).tris with
  | none => exact absurd hc ((Verif.Mesh.C06_rejects_exactly_nonconforming _).mp hb)
  | some nbr =>
    unfold buildMesh at hbad ⊢
    rw [hb] at hbad ⊢
    simp only at hbad ⊢
    cases hbd : Verif.Mesh.boundaryDict (localOf d m' (ghostsOf d m' width) p).tris.length "exterior" nbr.neighbours
      (localOf d m' (ghostsOf d m' width) p).boundary with
    | none => rw [hbd] at hbad; exact absurd rfl hbad
    | some b => exact ⟨_, rfl⟩

end Setup

theorem ids_of_triL2g {d : Division} {m' : MeshData} (s : Setup N epart tris user m d m') (width p k t : ℕ)
    (h : (localOf d m' (ghostsOf d m' width) p).triL2g[k]? = some t) :
    ∃ g, (ids d m' width p)[k]? = some g ∧ t = old epart g := by
  rw [s.triL2g, List.getElem?_map] at h
  cases hg : (ids d m' width p)[k]? with
  | none => rw [hg] at h; cases h
  | some g =>
    rw [hg, Option.map_some, Option.some.injEq] at h
    exact ⟨g, rfl, h.symm⟩

/-- C67: every part is accepted as a mesh. -/
theorem C67_accepted (hu : (user.map Prod.fst).Nodup) (hm : buildMesh tris user = .ok m)
    (hlen : epart.length = tris.length) (h : distribute N width epart tris m.boundary = .ok parts) (p : ℕ) (a : Local)
    (ha : parts[p]? = some a) : ∃ ml, buildMesh a.tris a.boundary = .ok ml := by
  obtain ⟨d, m', s, hp⟩ := distribute_ok hu hm hlen h
  obtain ⟨hpN, rfl⟩ := (parts_get hp p a).mp ha
  exact s.local_mesh width p

/-- C67: the tags of a local mesh are those of the serial mesh on the edges that have one, "ghost" exactly on the edges behind
which the serial mesh has a triangle the processor does not hold, and there are no others. -/
theorem C67_tags (hu : (user.map Prod.fst).Nodup) (hm : buildMesh tris user = .ok m)
    (hlen : epart.length = tris.length) (h : distribute N width epart tris m.boundary = .ok parts) (p : ℕ) (a : Local)
    (ha : parts[p]? = some a) (ml : MeshData) (hml : buildMesh a.tris a.boundary = .ok ml) (k e t : ℕ)
    (hk : a.triL2g[k]? = some t) (tag : String) :
    ml.boundary.lookup (k, e) = some tag ↔
      m.boundary.lookup (t, e) = some tag ∨
      (tag = "ghost" ∧ ∃ u : ℕ, m.enum.neighbours (t, e) = (u : ℤ) ∧ u ∉ a.triL2g) := by
  obtain ⟨d, m', s, hp⟩ := distribute_ok hu hm hlen h
  obtain ⟨hpN, rfl⟩ := (parts_get hp p a).mp ha
  obtain ⟨g, hg, rfl⟩ := ids_of_triL2g s width p k t hk
  have hno : ∀ u : ℕ, u ∉ (localOf d m' (ghostsOf d m' width) p).triL2g ↔ ∀ y ∈ ids d m' width p, u ≠ old epart y := by
    intro u
    rw [s.triL2g, List.mem_map]
    constructor
    · intro hh y hy he; exact hh ⟨y, hy, he.symm⟩
    · rintro hh ⟨y, hy, he⟩; exact hh y hy he.symm
  simp only [hno]
  rw [← s.local_tags width p k e g tag hg]
  obtain ⟨b1, b2⟩ := s.local_boundary_raw width p
  rw [Verif.Mesh.C07_tags _ _ b1 ml hml, ← Verif.Mesh.lookup_eq_some_iff _ b1]
  constructor
  · rintro (hh | ⟨hh, hkl, he, hno', rfl⟩)
    · exact hh
    · exfalso
      have hnone : ∀ t, (localOf d m' (ghostsOf d m' width) p).boundary.lookup (k, e) ≠ some t := by
        intro t ht
        exact hh t ((Verif.Mesh.lookup_eq_some_iff _ b1 _ _).mp ht)
      have hgl := s.ids_lt width p g (List.mem_of_getElem? hg)
      rcases s.tag_or_neighbour (old epart g) e (by rw [← s.hlen]; exact old_lt epart g hgl) he with ⟨tag', h'⟩ | ⟨h', u, hu'⟩
      · exact hnone tag' ((s.local_tags width p k e g tag' hg).mpr (Or.inl h'))
      · by_cases hex : ∃ y ∈ ids d m' width p, u = old epart y
        · obtain ⟨y, hy, rfl⟩ := hex
          obtain ⟨l, hl⟩ := List.mem_iff_getElem?.mp hy
          obtain ⟨⟨j, hj⟩, _⟩ := (s.serial_neighbours _ _ _).mp hu'
          exact hno' ⟨l, j, (s.local_across width p k e l j g y hg hl).mpr hj⟩
        · refine hnone "ghost" ((s.local_tags width p k e g "ghost" hg).mpr (Or.inr ⟨rfl, u, hu', ?_⟩))
          intro y hy he'
          exact hex ⟨y, hy, he'⟩
  · exact Or.inl

/-- C67: between triangles a processor holds, its neighbour relation is the serial one. -/
theorem C67_neighbours (hu : (user.map Prod.fst).Nodup) (hm : buildMesh tris user = .ok m)
    (hlen : epart.length = tris.length) (h : distribute N width epart tris m.boundary = .ok parts) (p : ℕ) (a : Local)
    (ha : parts[p]? = some a) (ml : MeshData) (hml : buildMesh a.tris a.boundary = .ok ml) (k e t l u : ℕ)
    (hk : a.triL2g[k]? = some t) (hl : a.triL2g[l]? = some u) :
    (ml.enum.neighbours (k, e) = (l : ℤ) ↔ m.enum.neighbours (t, e) = (u : ℤ)) ∧
    (m.enum.neighbours (t, e) = (u : ℤ) → ml.nbr.neighbourEdges (k, e) = m.nbr.neighbourEdges (t, e)) := by
  have htags := C67_tags hu hm hlen h p a ha ml hml k e t hk
  have hlen' := List.mem_of_getElem? hl
  obtain ⟨d, m', s, hp⟩ := distribute_ok hu hm hlen h
  obtain ⟨hpN, rfl⟩ := (parts_get hp p a).mp ha
  obtain ⟨g, hg, rfl⟩ := ids_of_triL2g s width p k t hk
  obtain ⟨g', hg', rfl⟩ := ids_of_triL2g s width p l u hl
  obtain ⟨b1, b2⟩ := s.local_boundary_raw width p
  obtain ⟨_, _, c3, _, c5⟩ := Verif.Mesh.C07_enumeration_bijective _ _ b1 ml hml
  obtain ⟨h1, _, _⟩ := Verif.Mesh.buildMesh_ok hml
  obtain ⟨h1', _, _⟩ := Verif.Mesh.buildMesh_ok hm
  have hacross : ∀ j, Across (localOf d m' (ghostsOf d m' width) p).tris k e l j ↔ Across tris (old epart g) e (old epart g') j :=
    fun j => s.local_across width p k e l j g g' hg hg'
  refine ⟨?_, ?_⟩
  · rw [s.serial_neighbours]
    cases hlk : ml.boundary.lookup (k, e) with
    | some tag =>
      obtain ⟨j, _, _, _, _, hj⟩ := c3 k e tag hlk
      constructor
      · intro hh; omega
      · rintro ⟨⟨j', hj'⟩, hn⟩
        rcases (htags tag).mp hlk with hh | ⟨_, u, hu', hnot⟩
        · rw [hn] at hh; cases hh
        · exfalso
          apply hnot
          have := (s.serial_neighbours (old epart g) e (old epart g')).mpr ⟨⟨j', hj'⟩, hn⟩
          rw [this] at hu'
          have : u = old epart g' := by omega
          rw [this]
          exact hlen'
    | none =>
      rw [(c5 _ hlk).2]
      have hn : m.boundary.lookup (old epart g, e) = none := by
        cases hx : m.boundary.lookup (old epart g, e) with
        | none => rfl
        | some tag => rw [(htags tag).mpr (Or.inl hx)] at hlk; cases hlk
      rcases Verif.Mesh.nbr_cases _ ml.nbr h1 k e with ⟨l', j', ha', e1, e2⟩ | ⟨hno, e1, _⟩
      · constructor
        · intro hh
          have : l = l' := by omega
          subst this
          exact ⟨⟨j', (hacross j').mp ha'⟩, hn⟩
        · rintro ⟨⟨j, hj⟩, _⟩
          obtain ⟨rfl, _⟩ := Verif.Mesh.across_unique _ (Verif.Mesh.conforming_of_build h1) ha' ((hacross j).mpr hj)
          exact e1
      · constructor
        · intro hh; omega
        · rintro ⟨⟨j, hj⟩, _⟩
          exact absurd ((hacross j).mpr hj) (hno l j)
  · intro hh
    obtain ⟨⟨j, hj⟩, _⟩ := (s.serial_neighbours _ _ _).mp hh
    rw [((Verif.Mesh.C05_neighbours_are_adjacent_triangles _ ml.nbr h1 k e l j).mpr ((hacross j).mpr hj)).2,
      ((Verif.Mesh.C05_neighbours_are_adjacent_triangles _ m.nbr h1' _ e _ j).mpr hj).2]

/-- C67: around a processor's own triangles nothing is missing: every triangle the serial mesh has behind an edge is held, and no
edge of an own triangle gets the tag "ghost". -/
theorem C67_own_complete (hu : (user.map Prod.fst).Nodup) (hm : buildMesh tris user = .ok m)
    (hlen : epart.length = tris.length) (h : distribute N width epart tris m.boundary = .ok parts) (p : ℕ) (a : Local)
    (ha : parts[p]? = some a) (k e t : ℕ) (hk : a.triL2g[k]? = some t) (hf : k < a.nFull) (u : ℕ)
    (hn : m.enum.neighbours (t, e) = (u : ℤ)) : u ∈ a.triL2g := by
  obtain ⟨d, m', s, hp⟩ := distribute_ok hu hm hlen h
  obtain ⟨hpN, rfl⟩ := (parts_get hp p a).mp ha
  obtain ⟨g, hg, rfl⟩ := ids_of_triL2g s width p k t hk
  have hf' : k < procSum d.tpp (p + 1) - procSum d.tpp p := hf
  unfold ids at hg
  rw [List.getElem?_append_left (by rw [fullIds_length]; exact hf')] at hg
  obtain ⟨y, hy, rfl⟩ := s.own_neighbour width p g e u (List.mem_of_getElem? hg) hn
  rw [s.triL2g]
  exact List.mem_map_of_mem hy

/-! ## C68 -/

/-- C68: after an exchange every local triangle holds the value its owner has, whatever the values were before; own triangles
are not touched. -/
theorem C68_exchange {α : Type*} (hu : (user.map Prod.fst).Nodup) (hm : buildMesh tris user = .ok m)
    (hlen : epart.length = tris.length) (h : distribute N width epart tris m.boundary = .ok parts) (v : ℕ → ℕ → α)
    (p q : ℕ) (a b : Local) (ha : parts[p]? = some a) (hb : parts[q]? = some b) (k l t : ℕ)
    (hk : a.triL2g[k]? = some t) (hl : b.triL2g[l]? = some t) (hf : l < b.nFull) :
    exchange parts v p k = v q l := by
  have hown := (C65_every_triangle_owned_once hu hm hlen h t (by
    have := List.mem_of_getElem? hk
    exact ((C66_layers hu hm hlen h p a ha).2 t).mp this |>.lt)).2 q l b hb hf hl
  obtain ⟨d, m', s, hp⟩ := distribute_ok hu hm hlen h
  obtain ⟨hpN, rfl⟩ := (parts_get hp p a).mp ha
  obtain ⟨hqN, rfl⟩ := (parts_get hp q b).mp hb
  obtain ⟨g, hg, rfl⟩ := ids_of_triL2g s width p k t hk
  obtain ⟨g', hg', he⟩ := ids_of_triL2g s width q l _ hl
  have hgg := old_inj epart g g' (s.ids_lt width p g (List.mem_of_getElem? hg)) (s.ids_lt width q g' (List.mem_of_getElem? hg')) he
  subst hgg
  rw [hp, s.exchange width p hpN v k g hg]
  have ho : owner epart g = q := hown.symm
  by_cases hpq : owner epart g = p
  · rw [if_pos hpq]
    have : p = q := by rw [← hpq, ho]
    subst this
    rw [← (s.numbers width p).at hg, ← (s.numbers width p).at hg']
  · rw [if_neg hpq, ho, (s.numbers width q).at hg']

/-- C68: what one processor sends to another is exactly, triangle by triangle and in the same order, what the other expects from
it; nothing is sent from a processor to itself. -/
theorem C68_messages_match (hu : (user.map Prod.fst).Nodup) (hm : buildMesh tris user = .ok m)
    (hlen : epart.length = tris.length) (h : distribute N width epart tris m.boundary = .ok parts)
    (p q : ℕ) (a b : Local) (ha : parts[p]? = some a) (hb : parts[q]? = some b) :
    (b.fullSend p).length = (a.ghostRecv q).length ∧
    (∀ i k l gk gl : ℕ, (b.fullSend p)[i]? = some (l, gl) → (a.ghostRecv q)[i]? = some (k, gk) →
      l < b.nFull ∧ a.nFull ≤ k ∧ gl = gk ∧ ∃ t, a.triL2g[k]? = some t ∧ b.triL2g[l]? = some t) ∧
    (p = q → b.fullSend p = []) := by
  obtain ⟨d, m', s, hp⟩ := distribute_ok hu hm hlen h
  obtain ⟨hpN, rfl⟩ := (parts_get hp p a).mp ha
  obtain ⟨hqN, rfl⟩ := (parts_get hp q b).mp hb
  rw [s.fullSend width p q hpN, s.ghostRecv width p q]
  have hsh : ∀ x ∈ shared epart d m' width p q, x ∈ ghostsOf d m' width p ∧ owner epart x = q := by
    intro x hx
    unfold shared at hx
    simpa using hx
  refine ⟨by simp, ?_, ?_⟩
  · intro i k l gk gl h1 h2
    rw [List.getElem?_map] at h1 h2
    cases hx : (shared epart d m' width p q)[i]? with
    | none => rw [hx] at h1; cases h1
    | some x =>
      rw [hx, Option.map_some, Option.some.injEq, Prod.mk.injEq] at h1 h2
      obtain ⟨rfl, rfl⟩ := h1
      obtain ⟨rfl, rfl⟩ := h2
      obtain ⟨hxg, hxo⟩ := hsh x (List.mem_of_getElem? hx)
      have hxl := s.ghost_lt width p x hxg
      have hmq : x ∈ fullIds (procSum d.tpp q) (procSum d.tpp (q + 1)) := (s.own_iff q x).mpr ⟨hxl, hxo⟩
      have hrange := (mem_fullIds _ _ _).mp hmq
      have e1 : (ids d m' width q)[x - procSum d.tpp q]? = some x := by
        unfold ids
        rw [List.getElem?_append_left (by rw [fullIds_length]; omega)]
        unfold fullIds
        rw [List.getElem?_range' (by omega)]
        congr 1
        omega
      obtain ⟨i2, hi2⟩ := List.mem_iff_getElem?.mp hxg
      have e2 : (ids d m' width p)[procSum d.tpp (p + 1) - procSum d.tpp p + i2]? = some x := by
        unfold ids
        rw [List.getElem?_append_right (by rw [fullIds_length]; omega), fullIds_length]
        rw [show procSum d.tpp (p + 1) - procSum d.tpp p + i2 - (procSum d.tpp (p + 1) - procSum d.tpp p) = i2 by omega]
        exact hi2
      rw [(s.numbers width q).at e1, (s.numbers width p).at e2]
      refine ⟨?_, ?_, rfl, old epart x, ?_, ?_⟩
      · show x - procSum d.tpp q < procSum d.tpp (q + 1) - procSum d.tpp q
        omega
      · show procSum d.tpp (p + 1) - procSum d.tpp p ≤ _
        omega
      · rw [s.triL2g, List.getElem?_map, e2]; rfl
      · rw [s.triL2g, List.getElem?_map, e1]; rfl
  · rintro rfl
    have : shared epart d m' width p p = [] := by
      rw [List.eq_nil_iff_forall_not_mem]
      intro x hx
      obtain ⟨hxg, hxo⟩ := hsh x hx
      exact ((s.ghosts width p x).mp hxg).2.1 hxo
    rw [this]
    rfl

/-- C68: the common timestep is the smallest one, unless a fixed one was asked for. -/
theorem C68_common_step {K : Type*} [LinearOrder K] (first : K) (rest : List K) :
    commonStep none first rest ∈ first :: rest ∧ (∀ x ∈ first :: rest, commonStep none first rest ≤ x) ∧
    ∀ f, commonStep (some f) first rest = f := by
  have key : ∀ (l : List K) (a : K), l.foldl min a ∈ a :: l ∧ ∀ x ∈ a :: l, l.foldl min a ≤ x := by
    intro l
    induction l with
    | nil => intro a; simp
    | cons b l ih =>
      intro a
      obtain ⟨i1, i2⟩ := ih (min a b)
      rw [List.foldl_cons]
      have hle := i2 _ List.mem_cons_self
      constructor
      · rcases List.mem_cons.mp i1 with h | h
        · rw [h]
          rcases min_choice a b with h' | h' <;> rw [h'] <;> simp
        · simp [h]
      · intro x hx
        rcases List.mem_cons.mp hx with rfl | hx
        · exact le_trans hle (min_le_left _ _)
        · rcases List.mem_cons.mp hx with rfl | hx
          · exact le_trans hle (min_le_right _ _)
          · exact i2 x (List.mem_cons_of_mem _ hx)
  exact ⟨(key rest first).1, (key rest first).2, fun f => rfl⟩

end Verif.Par
