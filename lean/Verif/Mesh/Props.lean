import Verif.Mesh.Lemmas

/-!
# Mesh properties C05, C06, C07
-/

namespace Verif.Mesh

/-! ## C05, C06 -/

/-- C06: construction of the neighbour structure is refused exactly when some directed edge is used twice. -/
theorem C06_rejects_exactly_nonconforming (tris : List Tri) : buildNeighbours tris = none ↔ ¬ Conforming tris := by
  rw [← keys_nodup_iff, ← insertAll_nil_some_iff]
  unfold buildNeighbours
  cases h : insertAll [] (allEntries tris) with
  | none => simp
  | some t => simp

/-- C06, at the level of mesh construction: with no user tags, a mesh is produced exactly for conforming triangulations. -/
theorem C06_mesh_built_iff_conforming (tris : List Tri) : (∃ m, buildMesh tris [] = .ok m) ↔ Conforming tris := by
  unfold buildMesh
  cases h : buildNeighbours tris with
  | none =>
    have := (C06_rejects_exactly_nonconforming tris).mp h
    simp [this]
  | some nb =>
    have hc : Conforming tris := by
      by_contra hc
      rw [(C06_rejects_exactly_nonconforming tris).mpr hc] at h
      cases h
    simp [boundaryDict, hc]

/-- Two triangles sharing an edge in the same direction are rejected. -/
example : buildNeighbours [(0, 1, 2), (0, 1, 3)] = none := by
  rw [C06_rejects_exactly_nonconforming]
  intro h
  have := h 0 2 1 2 0 1 ⟨0, 1, 2, rfl, by simp⟩ ⟨0, 1, 3, rfl, by simp⟩
  omega

theorem nbr_cases (tris : List Tri) (nb : Nbr) (h : buildNeighbours tris = some nb) (k e : ℕ) :
    (∃ l j, Across tris k e l j ∧ nb.neighbours (k, e) = (l : ℤ) ∧ nb.neighbourEdges (k, e) = (j : ℤ)) ∨
    ((∀ l j, ¬ Across tris k e l j) ∧ nb.neighbours (k, e) = -1 ∧ nb.neighbourEdges (k, e) = -1) := by
  unfold buildNeighbours at h
  cases ht : insertAll [] (allEntries tris) with
  | none => rw [ht] at h; cases h
  | some tbl =>
    rw [ht] at h
    simp only [Option.some.injEq] at h
    subst h
    have hl := lookupRev_eq_some_iff tris tbl ht k e
    cases hr : lookupRev tbl tris k e with
    | none =>
      right
      refine ⟨?_, by simp [hr], by simp [hr]⟩
      intro l j ha
      rw [← hl] at ha
      rw [ha] at hr
      cases hr
    | some s =>
      left
      refine ⟨s.1, s.2, (hl s.1 s.2).mp hr, by simp [hr], by simp [hr]⟩

theorem across_unique (tris : List Tri) (hc : Conforming tris) {k e l j l' j' : ℕ}
    (h : Across tris k e l j) (h' : Across tris k e l' j') : l = l' ∧ j = j' := by
  obtain ⟨a, b, h1, h2⟩ := h
  obtain ⟨a', b', h1', h2'⟩ := h'
  have : a = a' ∧ b = b' := by
    obtain ⟨n0, n1, n2, ht, hh⟩ := h1
    obtain ⟨m0, m1, m2, ht', hh'⟩ := h1'
    rw [ht] at ht'
    simp only [Option.some.injEq, Prod.mk.injEq] at ht'
    omega
  obtain ⟨rfl, rfl⟩ := this
  exact hc _ _ _ _ _ _ h2 h2'

theorem conforming_of_build {tris : List Tri} {nb : Nbr} (h : buildNeighbours tris = some nb) : Conforming tris := by
  by_contra hc
  rw [(C06_rejects_exactly_nonconforming tris).mpr hc] at h
  cases h

/-- C05: the recorded neighbour across an edge is exactly the triangle that uses the same two nodes in the opposite
direction, together with the matching edge; an edge without such a triangle is marked by -1. -/
theorem C05_neighbours_are_adjacent_triangles (tris : List Tri) (nb : Nbr) (h : buildNeighbours tris = some nb)
    (k e l j : ℕ) :
    (nb.neighbours (k, e) = l ∧ nb.neighbourEdges (k, e) = j) ↔ Across tris k e l j := by
  have hc := conforming_of_build h
  rcases nbr_cases tris nb h k e with ⟨l', j', ha, h1, h2⟩ | ⟨hn, h1, h2⟩
  · constructor
    · rintro ⟨e1, e2⟩
      have : l = l' ∧ j = j' := by omega
      obtain ⟨rfl, rfl⟩ := this
      exact ha
    · intro hb
      obtain ⟨rfl, rfl⟩ := across_unique tris hc ha hb
      exact ⟨h1, h2⟩
  · constructor
    · rintro ⟨e1, _⟩; omega
    · intro hb; exact absurd hb (hn l j)

/-- C05: an edge is marked negative exactly when no triangle lies on its other side. -/
theorem C05_negative_iff_no_neighbour (tris : List Tri) (nb : Nbr) (h : buildNeighbours tris = some nb) (k e : ℕ) :
    nb.neighbours (k, e) < 0 ↔ ¬ ∃ l j, Across tris k e l j := by
  rcases nbr_cases tris nb h k e with ⟨l', j', ha, h1, h2⟩ | ⟨hn, h1, h2⟩
  · constructor
    · intro hh; omega
    · intro hh; exact absurd ⟨l', j', ha⟩ hh
  · constructor
    · rintro _ ⟨l, j, ha⟩; exact hn l j ha
    · intro _; omega

/-- C05: neighbour and neighbour edge are mutually inverse. -/
theorem C05_neighbour_symmetry (tris : List Tri) (nb : Nbr) (h : buildNeighbours tris = some nb) (k e l j : ℕ)
    (h1 : nb.neighbours (k, e) = l) (h2 : nb.neighbourEdges (k, e) = j) :
    nb.neighbours (l, j) = k ∧ nb.neighbourEdges (l, j) = e ∧ k < tris.length ∧ l < tris.length ∧ e < 3 ∧ j < 3 := by
  have ha := (C05_neighbours_are_adjacent_triangles tris nb h k e l j).mp ⟨h1, h2⟩
  obtain ⟨a, b, ha1, ha2⟩ := ha
  obtain ⟨g1, g2⟩ := (C05_neighbours_are_adjacent_triangles tris nb h l j k e).mpr ⟨b, a, ha2, ha1⟩
  refine ⟨g1, g2, ?_⟩
  obtain ⟨n0, n1, n2, ht, hh⟩ := ha1
  obtain ⟨m0, m1, m2, ht', hh'⟩ := ha2
  obtain ⟨x1, _⟩ := List.getElem?_eq_some_iff.mp ht
  obtain ⟨x2, _⟩ := List.getElem?_eq_some_iff.mp ht'
  omega

/-- C05: a triangle with three different nodes is never its own neighbour. -/
theorem C05_not_own_neighbour (tris : List Tri) (nb : Nbr) (h : buildNeighbours tris = some nb) (k e n0 n1 n2 : ℕ)
    (hk : tris[k]? = some (n0, n1, n2)) (h01 : n0 ≠ n1) (h12 : n1 ≠ n2) (h02 : n0 ≠ n2) :
    nb.neighbours (k, e) ≠ k := by
  rcases nbr_cases tris nb h k e with ⟨l', j', ha, h1, h2⟩ | ⟨hn, h1, h2⟩
  · intro hh
    have : l' = k := by omega
    subst this
    obtain ⟨a, b, ⟨m0, m1, m2, ht, hh⟩, ⟨p0, p1, p2, ht', hh'⟩⟩ := ha
    rw [hk] at ht ht'
    simp only [Option.some.injEq, Prod.mk.injEq] at ht ht'
    omega
  · omega

/-- C05: the number of boundary edges of a triangle is the number of its three edges with nothing on the other side. -/
theorem C05_number_of_boundaries (tris : List Tri) (nb : Nbr) (h : buildNeighbours tris = some nb) (k : ℕ) :
    nb.numBoundaries k = ((List.range 3).filter (fun e => decide (nb.neighbours (k, e) < 0))).length := by
  unfold buildNeighbours at h
  cases ht : insertAll [] (allEntries tris) with
  | none => rw [ht] at h; cases h
  | some tbl =>
    rw [ht] at h
    simp only [Option.some.injEq] at h
    subst h
    simp only [show List.range 3 = [0, 1, 2] from rfl]
    cases h0 : lookupRev tbl tris k 0 <;> cases h1 : lookupRev tbl tris k 1 <;> cases h2 : lookupRev tbl tris k 2 <;>
      simp [h0, h1, h2]

/-- C05: the surrogate neighbour is the true neighbour where one exists and the triangle itself otherwise; in
particular it is always a triangle of the mesh. -/
theorem C05_surrogate (tris : List Tri) (nb : Nbr) (h : buildNeighbours tris = some nb) (k e : ℕ) (hk : k < tris.length) :
    (∀ l j, Across tris k e l j → surrogate nb.neighbours k e = l) ∧
    ((¬ ∃ l j, Across tris k e l j) → surrogate nb.neighbours k e = k) ∧
    0 ≤ surrogate nb.neighbours k e ∧ surrogate nb.neighbours k e < tris.length := by
  have hneg := C05_negative_iff_no_neighbour tris nb h k e
  have hall : ∀ l j, Across tris k e l j → surrogate nb.neighbours k e = l ∧ l < tris.length := by
    intro l j ha
    obtain ⟨h1, h2⟩ := (C05_neighbours_are_adjacent_triangles tris nb h k e l j).mpr ha
    have := C05_neighbour_symmetry tris nb h k e l j h1 h2
    unfold surrogate
    rw [if_neg (by omega)]
    exact ⟨h1, this.2.2.2.1⟩
  have hno : (¬ ∃ l j, Across tris k e l j) → surrogate nb.neighbours k e = k := by
    intro hh
    unfold surrogate
    rw [if_pos (hneg.mpr hh)]
  refine ⟨fun l j ha => (hall l j ha).1, hno, ?_⟩
  by_cases hh : ∃ l j, Across tris k e l j
  · obtain ⟨l, j, ha⟩ := hh
    have := hall l j ha
    omega
  · rw [hno hh]; omega

/-- Two triangles forming a square. -/
def exTris : List Tri := [(0, 1, 2), (2, 3, 0)]

example : ∃ nb, buildNeighbours exTris = some nb ∧ nb.neighbours (0, 1) = 1 ∧ nb.neighbourEdges (0, 1) = 1 ∧
    nb.neighbours (1, 1) = 0 ∧ nb.neighbours (0, 0) = -1 ∧ nb.numBoundaries 0 = 2 := ⟨_, rfl, by decide⟩

/-! ## C07 -/

theorem mem_candidates (n : ℕ) (p : ℕ × ℕ) :
    p ∈ (List.range n).flatMap (fun k => (List.range 3).map (fun e => (k, e))) ↔ p.1 < n ∧ p.2 < 3 := by
  obtain ⟨k, e⟩ := p
  simp only [List.mem_flatMap, List.mem_range, List.mem_map, Prod.mk.injEq]
  constructor
  · rintro ⟨a, ha, b, hb, rfl, rfl⟩; exact ⟨ha, hb⟩
  · rintro ⟨h1, h2⟩; exact ⟨k, h1, e, h2, rfl, rfl⟩

theorem buildMesh_ok {tris : List Tri} {user : BDict} {m : MeshData} (h : buildMesh tris user = .ok m) :
    buildNeighbours tris = some m.nbr ∧ boundaryDict tris.length "exterior" m.nbr.neighbours user = some m.boundary ∧
    m.enum = buildBoundary m.nbr.neighbours m.boundary := by
  unfold buildMesh at h
  cases h1 : buildNeighbours tris with
  | none => rw [h1] at h; cases h
  | some nbr =>
    rw [h1] at h
    simp only at h
    cases h2 : boundaryDict tris.length "exterior" nbr.neighbours user with
    | none => rw [h2] at h; cases h
    | some b =>
      rw [h2] at h
      cases h
      exact ⟨rfl, h2, rfl⟩

theorem boundaryDict_spec {n : ℕ} {dt : String} {nb : ℕ × ℕ → ℤ} {user b : BDict}
    (hu : (user.map Prod.fst).Nodup) (h : boundaryDict n dt nb user = some b) :
    (∀ x ∈ user, x.1.1 < n ∧ x.1.2 < 3) ∧ (b.map Prod.fst).Nodup ∧
    ∀ q tag, b.lookup q = some tag ↔
      (user.lookup q = some tag ∨ (user.lookup q = none ∧ (q.1 < n ∧ q.2 < 3) ∧ nb q < 0 ∧ tag = dt)) := by
  unfold boundaryDict at h
  split at h
  · rename_i hall
    have hall' : ∀ x ∈ user, x.1.1 < n ∧ x.1.2 < 3 := by
      intro x hx
      have := List.all_eq_true.mp hall x hx
      simpa using this
    simp only [Option.some.injEq] at h
    obtain ⟨h1, h2⟩ := fold_dict dt nb ((List.range n).flatMap (fun k => (List.range 3).map (fun e => (k, e)))) user hu
    rw [h] at h1 h2
    refine ⟨hall', h1, ?_⟩
    intro q tag
    rw [h2, mem_candidates]
  · cases h

/-- C07: a user tag for a segment outside the mesh is refused, and this is the only reason (besides a non-conforming
triangulation) for refusing. -/
theorem C07_bad_segment_rejected (tris : List Tri) (user : BDict) :
    buildMesh tris user = .error .noSuchSegment ↔
      Conforming tris ∧ ∃ x ∈ user, ¬ (x.1.1 < tris.length ∧ x.1.2 < 3) := by
  unfold buildMesh
  cases h1 : buildNeighbours tris with
  | none =>
    have := (C06_rejects_exactly_nonconforming tris).mp h1
    simp [this]
  | some nb =>
    have hc := conforming_of_build h1
    simp only [hc, true_and]
    unfold boundaryDict
    by_cases hall : user.all (fun e => decide (e.1.1 < tris.length ∧ e.1.2 < 3)) = true
    · rw [if_pos hall]
      simp only [reduceCtorEq, false_iff]
      rintro ⟨x, hx, hn⟩
      exact hn (by simpa using List.all_eq_true.mp hall x hx)
    · rw [if_neg hall]
      simp only [true_iff]
      by_contra hno
      apply hall
      rw [List.all_eq_true]
      intro x hx
      by_contra hx2
      exact hno ⟨x, hx, by simpa using hx2⟩

/-- C07: the tag of a segment is the user's tag if there is one, otherwise "exterior" for every edge of the mesh with no
triangle on the other side; nothing else is a boundary segment. -/
theorem C07_tags (tris : List Tri) (user : BDict) (hu : (user.map Prod.fst).Nodup) (m : MeshData)
    (h : buildMesh tris user = .ok m) (k e : ℕ) (tag : String) :
    m.boundary.lookup (k, e) = some tag ↔
      (((k, e), tag) ∈ user ∨
       ((∀ t, ((k, e), t) ∉ user) ∧ k < tris.length ∧ e < 3 ∧ (¬ ∃ l j, Across tris k e l j) ∧ tag = "exterior")) := by
  obtain ⟨h1, h2, h3⟩ := buildMesh_ok h
  obtain ⟨_, hb, hs⟩ := boundaryDict_spec hu h2
  rw [hs, lookup_eq_some_iff user hu, C05_negative_iff_no_neighbour tris m.nbr h1 k e]
  have : user.lookup (k, e) = none ↔ ∀ t, ((k, e), t) ∉ user := by
    constructor
    · intro hn t ht
      rw [← lookup_eq_some_iff user hu, hn] at ht
      cases ht
    · intro hn
      cases hl : user.lookup (k, e) with
      | none => rfl
      | some t => exact absurd ((lookup_eq_some_iff user hu _ _).mp hl) (hn t)
  rw [this]
  tauto

theorem keyLe_total (a b : ℕ × ℕ) : (keyLe a b || keyLe b a) = true := by
  unfold keyLe
  simp only [Bool.or_eq_true, decide_eq_true_eq]
  omega

theorem keyLe_trans (a b c : ℕ × ℕ) : keyLe a b = true → keyLe b c = true → keyLe a c = true := by
  unfold keyLe
  simp only [decide_eq_true_eq]
  omega

theorem keyLe_antisymm (a b : ℕ × ℕ) : keyLe a b = true → keyLe b a = true → a = b := by
  unfold keyLe
  simp only [decide_eq_true_eq]
  intro h1 h2
  exact Prod.ext (by omega) (by omega)

/-- The sorted list of segments. -/
def segs (b : BDict) : List (ℕ × ℕ) := (b.map Prod.fst).insertionSort (fun a b => keyLe a b = true)

theorem segs_sorted (b : BDict) : (segs b).Pairwise (fun a b => keyLe a b = true) := by
  have : Std.Total (fun a b : ℕ × ℕ => keyLe a b = true) := ⟨fun a b => by simpa using keyLe_total a b⟩
  have : IsTrans (ℕ × ℕ) (fun a b : ℕ × ℕ => keyLe a b = true) := ⟨keyLe_trans⟩
  exact List.pairwise_insertionSort _ _

theorem segs_perm (b : BDict) : (segs b).Perm (b.map Prod.fst) := List.perm_insertionSort _ _

theorem segs_length (b : BDict) : (segs b).length = b.length := by
  rw [(segs_perm b).length_eq, List.length_map]

theorem build_fields (nb : ℕ × ℕ → ℤ) (b : BDict) :
    (buildBoundary nb b).neighbours = enumLoop (segs b) (-1) nb ∧
    (buildBoundary nb b).enumeration = (segs b).zipIdx ∧
    (buildBoundary nb b).cells = (segs b).map Prod.fst ∧
    (buildBoundary nb b).edges = (segs b).map Prod.snd := by
  have he : enumDict (segs b) (-1) = (segs b).zipIdx := by
    have := enumDict_eq (segs b) 0
    simpa using this
  have hl : (enumDict ((List.map Prod.fst b).insertionSort (fun a b => keyLe a b = true)) (-1)).length = (segs b).length := by
    have := congrArg List.length he
    rwa [List.length_zipIdx] at this
  refine ⟨rfl, he, ?_, ?_⟩
  · show (enumDict (segs b) (-1)).foldl (fun a p => a.set p.2 p.1.1) (List.replicate _ 0) = _
    rw [he, fold_set Prod.fst (segs b) 0 _ (by simpa using hl)]
    simp
  · show (enumDict (segs b) (-1)).foldl (fun a p => a.set p.2 p.1.2) (List.replicate _ 0) = _
    rw [he, fold_set Prod.snd (segs b) 0 _ (by simpa using hl)]
    simp

theorem zipIdx_lookup (X : List (ℕ × ℕ)) (hX : X.Nodup) (p : ℕ × ℕ) (j : ℕ) :
    X.zipIdx.lookup p = some j ↔ X[j]? = some p := by
  rw [lookup_eq_some_iff _ (by simpa using hX), List.mem_zipIdx_iff_getElem?]

/-- C07: the boundary segments are numbered 0..B-1 without gaps or repetition: the number of a segment, the arrays of
boundary triangles and boundary edges, and the negative marker in the neighbour array all agree. -/
theorem C07_enumeration_bijective (tris : List Tri) (user : BDict) (hu : (user.map Prod.fst).Nodup) (m : MeshData)
    (h : buildMesh tris user = .ok m) :
    m.enum.cells.length = m.boundary.length ∧ m.enum.edges.length = m.boundary.length ∧
    (∀ k e tag, m.boundary.lookup (k, e) = some tag →
      ∃ j < m.boundary.length, m.enum.enumeration.lookup (k, e) = some j ∧ m.enum.cells[j]? = some k ∧
        m.enum.edges[j]? = some e ∧ m.enum.neighbours (k, e) = -(j : ℤ) - 1) ∧
    (∀ j < m.boundary.length, ∃! s : ℕ × ℕ, m.enum.enumeration.lookup s = some j ∧
        m.enum.cells[j]? = some s.1 ∧ m.enum.edges[j]? = some s.2 ∧ (m.boundary.lookup s).isSome) ∧
    (∀ s, m.boundary.lookup s = none → m.enum.enumeration.lookup s = none ∧
        m.enum.neighbours s = m.nbr.neighbours s) := by
  obtain ⟨h1, h2, h3⟩ := buildMesh_ok h
  obtain ⟨_, hb, _⟩ := boundaryDict_spec hu h2
  obtain ⟨f1, f2, f3, f4⟩ := build_fields m.nbr.neighbours m.boundary
  rw [← h3] at f1 f2 f3 f4
  have hX : (segs m.boundary).Nodup := (segs_perm _).nodup_iff.mpr hb
  have hmem : ∀ s, s ∈ segs m.boundary ↔ (m.boundary.lookup s).isSome := by
    intro s
    rw [(segs_perm _).mem_iff, lookup_isSome_iff]
  rw [f1, f2, f3, f4]
  refine ⟨by simp [segs_length], by simp [segs_length], ?_, ?_, ?_⟩
  · intro k e tag hk
    have : (k, e) ∈ segs m.boundary := by rw [hmem, hk]; rfl
    obtain ⟨j, hj⟩ := List.mem_iff_getElem?.mp this
    refine ⟨j, ?_, (zipIdx_lookup _ hX _ _).mpr hj, by simp [hj], by simp [hj], ?_⟩
    · rw [← segs_length]
      exact (List.getElem?_eq_some_iff.mp hj).1
    · rw [enumLoop_getElem _ _ _ j _ hX hj]; omega
  · intro j hj
    rw [← segs_length] at hj
    refine ⟨(segs m.boundary)[j], ⟨?_, ?_, ?_, ?_⟩, ?_⟩
    · rw [zipIdx_lookup _ hX]; simp
    · simp [hj]
    · simp [hj]
    · rw [← hmem]; simp
    · rintro s ⟨hs, _⟩
      rw [zipIdx_lookup _ hX] at hs
      exact ((List.getElem?_eq_some_iff.mp hs).2).symm
  · intro s hs
    have hns : s ∉ segs m.boundary := by rw [hmem, hs]; simp
    refine ⟨?_, enumLoop_not_mem _ _ _ _ hns⟩
    cases hl : (segs m.boundary).zipIdx.lookup s with
    | none => rfl
    | some j =>
      rw [zipIdx_lookup _ hX] at hl
      exact absurd (List.mem_of_getElem? hl) hns

/-- C07: boundary segments are numbered in increasing (triangle, edge) order. -/
theorem C07_enumeration_sorted (tris : List Tri) (user : BDict) (hu : (user.map Prod.fst).Nodup) (m : MeshData)
    (h : buildMesh tris user = .ok m) (s t : ℕ × ℕ) (i j : ℕ)
    (hi : m.enum.enumeration.lookup s = some i) (hj : m.enum.enumeration.lookup t = some j) (hij : i < j) :
    s.1 < t.1 ∨ (s.1 = t.1 ∧ s.2 < t.2) := by
  obtain ⟨h1, h2, h3⟩ := buildMesh_ok h
  obtain ⟨_, hb, _⟩ := boundaryDict_spec hu h2
  obtain ⟨f1, f2, f3, f4⟩ := build_fields m.nbr.neighbours m.boundary
  rw [← h3] at f2
  have hX : (segs m.boundary).Nodup := (segs_perm _).nodup_iff.mpr hb
  rw [f2, zipIdx_lookup _ hX] at hi hj
  obtain ⟨li, ei⟩ := List.getElem?_eq_some_iff.mp hi
  obtain ⟨lj, ej⟩ := List.getElem?_eq_some_iff.mp hj
  have hs : (segs m.boundary).Pairwise (fun a b => keyLe a b = true) :=
    segs_sorted _
  have hle := List.pairwise_iff_getElem.mp hs i j li lj hij
  rw [ei, ej] at hle
  have hne : s ≠ t := by
    rintro rfl
    have := (List.Nodup.getElem_inj_iff hX).mp (ei.trans ej.symm)
    omega
  unfold keyLe at hle
  simp only [decide_eq_true_eq] at hle
  rcases hle with hle | ⟨a, b⟩
  · exact Or.inl hle
  · refine Or.inr ⟨a, ?_⟩
    rcases Nat.lt_or_eq_of_le b with b | b
    · exact b
    · exact absurd (Prod.ext a b) hne

/-- C07: the segment list of a tag contains exactly the numbers of the segments with that tag. -/
theorem C07_tag_lists (tris : List Tri) (user : BDict) (hu : (user.map Prod.fst).Nodup) (m : MeshData)
    (h : buildMesh tris user = .ok m) (tag : String) :
    (m.enum.tagCells tag).Nodup ∧
    ∀ j, j ∈ m.enum.tagCells tag ↔
      ∃ s, m.enum.enumeration.lookup s = some j ∧ m.boundary.lookup s = some tag := by
  obtain ⟨h1, h2, h3⟩ := buildMesh_ok h
  obtain ⟨_, hb, _⟩ := boundaryDict_spec hu h2
  obtain ⟨f1, f2, f3, f4⟩ := build_fields m.nbr.neighbours m.boundary
  have ht : m.enum.tagCells tag = (List.range m.boundary.length).filter (fun j =>
      m.boundary.lookup (m.enum.cells.getD j 0, m.enum.edges.getD j 0) = some tag) := by
    rw [h3]; rfl
  rw [← h3] at f2 f3 f4
  have hX : (segs m.boundary).Nodup := (segs_perm _).nodup_iff.mpr hb
  rw [ht, f2, f3, f4]
  refine ⟨List.Nodup.filter _ List.nodup_range, ?_⟩
  intro j
  simp only [List.mem_filter, List.mem_range, decide_eq_true_eq]
  constructor
  · rintro ⟨hj, hl⟩
    rw [← segs_length] at hj
    refine ⟨(segs m.boundary)[j], ?_, ?_⟩
    · rw [zipIdx_lookup _ hX]; simp
    · simpa [List.getD, hj] using hl
  · rintro ⟨s, hs, hl⟩
    rw [zipIdx_lookup _ hX] at hs
    obtain ⟨lj, ej⟩ := List.getElem?_eq_some_iff.mp hs
    refine ⟨by rw [← segs_length]; exact lj, ?_⟩
    simp [List.getD, hs, hl]

/-- C07: the numbering does not depend on the order in which the user lists the segments. -/
theorem C07_order_independent (tris : List Tri) (user user' : BDict) (hu : (user.map Prod.fst).Nodup)
    (hp : user.Perm user') (m m' : MeshData) (h : buildMesh tris user = .ok m) (h' : buildMesh tris user' = .ok m') :
    m.enum.enumeration = m'.enum.enumeration ∧ m.enum.cells = m'.enum.cells ∧ m.enum.edges = m'.enum.edges ∧
    m.enum.neighbours = m'.enum.neighbours ∧ (∀ s, m.boundary.lookup s = m'.boundary.lookup s) ∧
    ∀ tag j, j ∈ m.enum.tagCells tag ↔ j ∈ m'.enum.tagCells tag := by
  have hu' : (user'.map Prod.fst).Nodup := (hp.map Prod.fst).nodup_iff.mp hu
  obtain ⟨h1, h2, h3⟩ := buildMesh_ok h
  obtain ⟨h1', h2', h3'⟩ := buildMesh_ok h'
  obtain ⟨_, hb, _⟩ := boundaryDict_spec hu h2
  obtain ⟨_, hb', _⟩ := boundaryDict_spec hu' h2'
  have hn : m.nbr = m'.nbr := by rw [h1] at h1'; exact Option.some.inj h1'
  have hlk : ∀ s, m.boundary.lookup s = m'.boundary.lookup s := by
    intro s
    apply Option.ext
    intro tag
    obtain ⟨k, e⟩ := s
    rw [C07_tags tris user hu m h, C07_tags tris user' hu' m' h']
    simp only [hp.mem_iff]
  have hperm : (m.boundary.map Prod.fst).Perm (m'.boundary.map Prod.fst) := by
    rw [List.perm_ext_iff_of_nodup hb hb']
    intro s
    rw [← lookup_isSome_iff, ← lookup_isSome_iff, hlk]
  have hs : segs m.boundary = segs m'.boundary := by
    apply List.Perm.eq_of_pairwise (le := fun a b => keyLe a b = true)
    · intro a b _ _ x y; exact keyLe_antisymm a b x y
    · exact segs_sorted _
    · exact segs_sorted _
    · exact (segs_perm _).trans (hperm.trans (segs_perm _).symm)
  obtain ⟨f1, f2, f3, f4⟩ := build_fields m.nbr.neighbours m.boundary
  obtain ⟨f1', f2', f3', f4'⟩ := build_fields m'.nbr.neighbours m'.boundary
  rw [← h3] at f1 f2 f3 f4
  rw [← h3'] at f1' f2' f3' f4'
  have he : m.enum.enumeration = m'.enum.enumeration := by rw [f2, f2', hs]
  refine ⟨he, by rw [f3, f3', hs], by rw [f4, f4', hs], by rw [f1, f1', hs, hn], hlk, ?_⟩
  intro tag j
  rw [(C07_tag_lists tris user hu m h tag).2, (C07_tag_lists tris user' hu' m' h' tag).2, he]
  simp only [hlk]

/-- C05/C07: after the boundary has been numbered the neighbour array is still symmetric, provided the user tagged no
interior edge. -/
theorem C05_symmetry_after_numbering (tris : List Tri) (user : BDict) (hu : (user.map Prod.fst).Nodup) (m : MeshData)
    (h : buildMesh tris user = .ok m)
    (hint : ∀ x ∈ user, ¬ ∃ l j, Across tris x.1.1 x.1.2 l j) (k e l j : ℕ) :
    (m.enum.neighbours (k, e) = l ∧ m.nbr.neighbourEdges (k, e) = j) ↔ Across tris k e l j := by
  obtain ⟨h1, h2, h3⟩ := buildMesh_ok h
  obtain ⟨_, _, c3, _, c5⟩ := C07_enumeration_bijective tris user hu m h
  cases hl : m.boundary.lookup (k, e) with
  | none =>
    rw [(c5 _ hl).2]
    exact C05_neighbours_are_adjacent_triangles tris m.nbr h1 k e l j
  | some tag =>
    obtain ⟨i, _, _, _, _, hi⟩ := c3 k e tag hl
    have hno : ¬ ∃ l j, Across tris k e l j := by
      rcases (C07_tags tris user hu m h k e tag).mp hl with hx | ⟨_, _, _, hx, _⟩
      · exact hint _ hx
      · exact hx
    constructor
    · rintro ⟨hh, _⟩; omega
    · intro ha; exact absurd ⟨l, j, ha⟩ hno

/-- Disagreement with C05 as a user would want it: a user tag on an interior edge is accepted, cuts the link on that side
only, and leaves the neighbour array asymmetric. -/
theorem C05_interior_tag_breaks_symmetry : ∃ m, buildMesh exTris [((0, 1), "inner")] = .ok m ∧
    m.enum.neighbours (1, 1) = 0 ∧ m.nbr.neighbourEdges (1, 1) = 1 ∧ m.enum.neighbours (0, 1) < 0 := by
  refine ⟨_, rfl, ?_⟩
  decide +kernel

example : ∃ m, buildMesh exTris [((0, 0), "ocean")] = .ok m ∧ m.boundary.length = 4 ∧
    m.boundary.lookup (0, 0) = some "ocean" ∧ m.boundary.lookup (1, 2) = some "exterior" ∧
    m.enum.tagCells "exterior" = [1, 2, 3] ∧ m.enum.neighbours (1, 0) = -3 := by
  refine ⟨_, rfl, ?_⟩
  decide +kernel

end Verif.Mesh
