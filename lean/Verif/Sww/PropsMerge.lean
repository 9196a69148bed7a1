import Verif.Sww.LemmasMerge

/-! C87: merging the files of a parallel run. -/

set_option linter.unusedSectionVars false

namespace Verif.Sww

variable {K : Type*} [Field K] [LinearOrder K] [IsStrictOrderedRing K]

theorem mem_ones (p : Part K) (i : ℕ) : i ∈ p.ones ↔ p.full[i]? = some 1 := by
  simp only [Part.ones, List.mem_filter, List.mem_range, decide_eq_true_eq, List.getD_eq_getElem?_getD]
  constructor
  · rintro ⟨h1, h2⟩
    simp only [List.getElem?_eq_getElem h1, Option.getD_some] at h2 ⊢
    rw [h2]
  · intro h
    obtain ⟨h1, _⟩ := List.getElem?_eq_some_iff.mp h
    exact ⟨h1, by rw [h]; rfl⟩

theorem flag_cases (p : Part K) (hf : ∀ b ∈ p.full, b = 0 ∨ b = 1) (i : ℕ) : p.full.getD i 0 = 0 ∨ p.full.getD i 0 = 1 := by
  rw [List.getD_eq_getElem?_getD]
  rcases h : p.full[i]? with _ | b
  · left; rfl
  · exact hf b (List.mem_of_getElem? h)

theorem positive_eq (p : Part K) (hf : ∀ b ∈ p.full, b = 0 ∨ b = 1) : p.positive = p.ones := by
  unfold Part.positive Part.ones
  apply List.filter_congr
  intro i _
  rcases flag_cases p hf i with h | h <;> rw [h] <;> simp

theorem compress_ones {α : Type*} (p : Part K) (hf : ∀ b ∈ p.full, b = 0 ∨ b = 1) (a : List α) (d : α)
    (h : a.length = p.full.length) : compress p.full a = p.ones.map fun i => a.getD i d := by
  rw [compress_eq _ _ d h]
  unfold Part.ones
  congr 1
  apply List.filter_congr
  intro i _
  rcases flag_cases p hf i with h | h <;> rw [h] <;> simp

theorem ones_lt (p : Part K) (i : ℕ) (h : i ∈ p.ones) : i < p.full.length := by
  obtain ⟨h1, _⟩ := List.getElem?_eq_some_iff.mp ((mem_ones p i).mp h)
  exact h1

theorem getElem?_getD {α : Type*} (a : List α) (d : α) (i : ℕ) (h : i < a.length) : a[i]? = some (a.getD i d) := by
  rw [List.getD_eq_getElem?_getD, List.getElem?_eq_getElem h]; rfl

section Layers

variable {G : Whole K} {parts : List (Part K)} (hG : Pieces G parts)

include hG

theorem own_iff (p : Part K) (hp : p ∈ parts) (i t : ℕ) : Own p i t ↔ i ∈ p.ones ∧ p.triL2g.getD i 0 = t := by
  unfold Own
  rw [mem_ones]
  constructor
  · rintro ⟨h1, h2⟩
    exact ⟨h1, by rw [List.getD_eq_getElem?_getD, h2]; rfl⟩
  · rintro ⟨h1, h2⟩
    refine ⟨h1, ?_⟩
    obtain ⟨h3, _⟩ := List.getElem?_eq_some_iff.mp h1
    have : i < p.triL2g.length := by rw [hG.l2g p hp, ← hG.full p hp]; exact h3
    rw [getElem?_getD _ 0 _ this, h2]

theorem l2g_lt (p : Part K) (hp : p ∈ parts) (i : ℕ) (hi : i ∈ p.ones) : p.triL2g.getD i 0 < G.tris.length := by
  have h3 := ones_lt p i hi
  have : i < p.triL2g.length := by rw [hG.l2g p hp, ← hG.full p hp]; exact h3
  exact hG.range p hp _ (List.mem_of_getElem? (getElem?_getD _ 0 _ this))

theorem gather_l2g (p : Part K) (hp : p ∈ parts) : gather p.triL2g p.ones = some (p.ones.map fun i => p.triL2g.getD i 0) :=
  gather_ok _ 0 _ (fun i hi => by rw [hG.l2g p hp, ← hG.full p hp]; exact ones_lt p i hi)

/-- Both formats hand over the same index and value arrays for values at triangles. -/
theorem plainCentroid_eq (val : Part K → List K) (p : Part K) (hp : p ∈ parts) (hl : (val p).length = p.volumes.length) :
    plainCentroid (fun p => some (val p)) p = some (p.ones.map fun i => p.triL2g.getD i 0, p.ones.map fun i => (val p).getD i 0) := by
  have h2 := gather_ok (val p) 0 p.ones (fun i hi => by rw [hl, ← hG.full p hp]; exact ones_lt p i hi)
  simp only [plainCentroid, gather_l2g hG p hp, h2]

theorem smoothCentroid_eq (val : Part K → List K) (p : Part K) (hp : p ∈ parts) (hl : (val p).length = p.volumes.length) :
    smoothCentroid (fun p => some (val p)) p = some (p.ones.map fun i => p.triL2g.getD i 0, p.ones.map fun i => (val p).getD i 0) := by
  have h2 := gather_ok (val p) 0 p.ones (fun i hi => by rw [hl, ← hG.full p hp]; exact ones_lt p i hi)
  simp only [smoothCentroid, positive_eq p (hG.flags p hp), h2,
    compress_ones p (hG.flags p hp) p.triL2g 0 (by rw [hG.l2g p hp, hG.full p hp])]

/-- Values at triangles are put together rightly, whatever they are. -/
theorem tri_right {α : Type*} (d : α) (f : Part K → Option (List ℕ × List α)) (v : Part K → ℕ → α)
    (hf : ∀ p ∈ parts, f p = some (p.ones.map fun i => p.triL2g.getD i 0, p.ones.map (v p))) :
    ∃ out, scatterAll f parts (List.replicate G.tris.length d) = some out ∧ out.length = G.tris.length ∧
      ∀ p ∈ parts, ∀ i t, Own p i t → out[t]? = some (v p i) := by
  obtain ⟨out, h1, h2⟩ := scatterAll_ok f parts (List.replicate G.tris.length d) (fun p hp =>
    ⟨_, _, hf p hp, by simp, fun j hj => by
      obtain ⟨i, hi, rfl⟩ := List.mem_map.mp hj
      simpa using l2g_lt hG p hp i hi⟩)
  refine ⟨out, h1, by simpa using h2, ?_⟩
  intro p hp i t ho
  obtain ⟨hi, ht⟩ := (own_iff hG p hp i t).mp ho
  have hw : ∀ q ∈ parts, writesOf (f q) = q.ones.map fun i => (q.triL2g.getD i 0, v q i) := by
    intro q hq
    rw [hf q hq]
    simp only [writesOf]
    rw [zip_maps]
  refine scatterAll_get f parts _ out h1 t (by rw [List.length_replicate, ← ht]; exact l2g_lt hG p hp i hi) _ ?_ ?_
  · intro q hq w hwm hwt
    rw [hw q hq] at hwm
    obtain ⟨j, hj, rfl⟩ := List.mem_map.mp hwm
    obtain ⟨e1, e2⟩ := hG.once p hp q hq i j t ho ((own_iff hG q hq j t).mpr ⟨hj, hwt⟩)
    subst e1 e2
    rfl
  · exact ⟨p, hp, (p.triL2g.getD i 0, v p i), by rw [hw p hp]; exact List.mem_map_of_mem hi, ht⟩

theorem centroid_right (layer : (Part K → Option (List K)) → Part K → Option (List ℕ × List K))
    (hl : ∀ (val : Part K → List K), ∀ p ∈ parts, (val p).length = p.volumes.length →
      layer (fun p => some (val p)) p = some (p.ones.map fun i => p.triL2g.getD i 0, p.ones.map fun i => (val p).getD i 0))
    (val : Part K → List K) (hv : ∀ p ∈ parts, (val p).length = p.volumes.length) :
    ∃ out, scatterAll (layer fun p => some (val p)) parts (List.replicate G.tris.length 0) = some out ∧
      TriRight G parts val out := by
  obtain ⟨out, h1, h2, h3⟩ := tri_right hG 0 _ (fun p i => (val p).getD i 0) (fun p hp => hl val p hp (hv p hp))
  refine ⟨out, h1, h2, fun p hp i t ho => ?_⟩
  rw [h3 p hp i t ho, getElem?_getD _ 0]
  obtain ⟨h4, _⟩ := List.getElem?_eq_some_iff.mp ho.1
  rw [hv p hp, ← hG.full p hp]; exact h4

/-- Values at the corners of triangles. -/
theorem corner_right (val : Part K → List K) (hv : ∀ p ∈ parts, (val p).length = 3 * p.volumes.length) :
    ∃ out, scatterAll (plainVertex fun p => some (val p)) parts (List.replicate (3 * G.tris.length) 0) = some out ∧
      CornerRight G parts val out := by
  have hf : ∀ p ∈ parts, plainVertex (fun p => some (val p)) p =
      some (corners (p.ones.map fun i => p.triL2g.getD i 0), (corners p.ones).map fun i => (val p).getD i 0) := by
    intro p hp
    have h2 := gather_ok (val p) 0 (corners p.ones) (fun j hj => by
      obtain ⟨i, hi, k, rfl⟩ := (mem_corners _ _).mp hj
      have := ones_lt p i hi
      rw [hv p hp]
      rw [hG.full p hp] at this
      have := k.isLt
      omega)
    simp only [plainVertex, gather_l2g hG p hp, h2]
  have hlen : ∀ l : List ℕ, (corners l).length = 3 * l.length := by
    intro l
    induction l with
    | nil => rfl
    | cons a l ih => simp only [corners, List.flatMap_cons, List.length_append, List.length_cons, List.length_nil] at ih ⊢; omega
  obtain ⟨out, h1, h2⟩ := scatterAll_ok (plainVertex fun p => some (val p)) parts (List.replicate (3 * G.tris.length) 0) (fun p hp =>
    ⟨_, _, hf p hp, by simp [hlen], fun j hj => by
      obtain ⟨t, ht, k, rfl⟩ := (mem_corners _ _).mp hj
      obtain ⟨i, hi, rfl⟩ := List.mem_map.mp ht
      have := l2g_lt hG p hp i hi
      have := k.isLt
      simp only [List.length_replicate]
      omega⟩)
  refine ⟨out, h1, by simpa using h2, ?_⟩
  intro p hp i t k ho
  obtain ⟨hi, ht⟩ := (own_iff hG p hp i t).mp ho
  have hw : ∀ q ∈ parts, ∀ w, w ∈ writesOf (plainVertex (fun p => some (val p)) q) ↔
      ∃ j ∈ q.ones, ∃ k : Fin 3, w = (3 * q.triL2g.getD j 0 + k, (val q).getD (3 * j + k) 0) := by
    intro q hq w
    rw [hf q hq]
    simp only [writesOf]
    rw [corners_zip]
    simp only [List.mem_flatMap, List.mem_cons, List.not_mem_nil, or_false]
    constructor
    · rintro ⟨j, hj, h | h | h⟩
      · exact ⟨j, hj, 0, by simpa using h⟩
      · exact ⟨j, hj, 1, by simpa using h⟩
      · exact ⟨j, hj, 2, by simpa using h⟩
    · rintro ⟨j, hj, k, h⟩
      refine ⟨j, hj, ?_⟩
      fin_cases k
      · left; simpa using h
      · right; left; simpa using h
      · right; right; simpa using h
  have htl := l2g_lt hG p hp i hi
  have hil := ones_lt p i hi
  rw [hG.full p hp] at hil
  have hk := k.isLt
  rw [getElem?_getD (val p) 0 (3 * i + k) (by rw [hv p hp]; omega)]
  refine scatterAll_get _ parts _ out h1 (3 * t + k) (by simp only [List.length_replicate]; omega) _ ?_ ?_
  · intro q hq w hwm hwt
    obtain ⟨j, hj, k', rfl⟩ := (hw q hq w).mp hwm
    simp only at hwt ⊢
    have hk' := k'.isLt
    have e : q.triL2g.getD j 0 = t ∧ k' = k := by
      constructor
      · omega
      · apply Fin.ext; omega
    obtain ⟨e1, e2⟩ := hG.once p hp q hq i j t ho ((own_iff hG q hq j t).mpr ⟨hj, e.1⟩)
    subst e1 e2
    rw [e.2]
  · exact ⟨p, hp, _, (hw p hp _).mpr ⟨i, hi, k, rfl⟩, by simp only; omega⟩

theorem mem_ownNodes (p : Part K) (hp : p ∈ parts) (m : ℕ) :
    m ∈ p.ownNodes ↔ ∃ (i : ℕ) (v : Fin 3 → ℕ) (k : Fin 3), p.full[i]? = some 1 ∧ p.volumes[i]? = some v ∧ v k = m := by
  unfold Part.ownNodes
  rw [List.mem_dedup, List.mem_insertionSort, compress_ones p (hG.flags p hp) p.volumes (fun _ => 0) (hG.full p hp).symm]
  simp only [List.mem_flatMap, List.mem_map, List.mem_cons, List.not_mem_nil, or_false]
  constructor
  · rintro ⟨v, ⟨i, hi, rfl⟩, h⟩
    have hil := ones_lt p i hi
    rw [hG.full p hp] at hil
    refine ⟨i, p.volumes.getD i fun _ => 0, ?_⟩
    rcases h with h | h | h
    · exact ⟨0, (mem_ones p i).mp hi, getElem?_getD _ _ _ hil, h.symm⟩
    · exact ⟨1, (mem_ones p i).mp hi, getElem?_getD _ _ _ hil, h.symm⟩
    · exact ⟨2, (mem_ones p i).mp hi, getElem?_getD _ _ _ hil, h.symm⟩
  · rintro ⟨i, v, k, h1, h2, h3⟩
    refine ⟨v, ⟨i, (mem_ones p i).mpr h1, by rw [List.getD_eq_getElem?_getD, h2]; rfl⟩, ?_⟩
    fin_cases k
    · left; exact h3.symm
    · right; left; exact h3.symm
    · right; right; exact h3.symm

variable (hS : SmoothFiles G parts)

include hS

theorem ownNodes_lt (p : Part K) (hp : p ∈ parts) (m : ℕ) (h : m ∈ p.ownNodes) : m < p.nodeL2g.length := by
  obtain ⟨i, v, k, h1, h2, h3⟩ := (mem_ownNodes hG p hp m).mp h
  obtain ⟨hi, _⟩ := List.getElem?_eq_some_iff.mp h2
  have hi' : i < p.triL2g.length := by rw [hG.l2g p hp]; exact hi
  obtain ⟨T, _, hT⟩ := hS.copy p hp i _ v (getElem?_getD _ 0 _ hi') h2
  obtain ⟨h4, _⟩ := List.getElem?_eq_some_iff.mp (hT k)
  rw [← h3]; exact h4

theorem touch_iff (p : Part K) (hp : p ∈ parts) (n : ℕ) :
    Touch p n ↔ ∃ m ∈ p.ownNodes, p.nodeL2g.getD m 0 = n := by
  constructor
  · rintro ⟨i, v, k, h1, h2, h3⟩
    exact ⟨v k, (mem_ownNodes hG p hp _).mpr ⟨i, v, k, h1, h2, rfl⟩, by rw [List.getD_eq_getElem?_getD, h3]; rfl⟩
  · rintro ⟨m, hm, h⟩
    have hlt := ownNodes_lt hG hS p hp m hm
    obtain ⟨i, v, k, h1, h2, h3⟩ := (mem_ownNodes hG p hp m).mp hm
    exact ⟨i, v, k, h1, h2, by rw [h3, getElem?_getD _ 0 _ hlt, h]⟩

theorem exists_touch (n : ℕ) (hn : n < G.X.length) : ∃ p ∈ parts, Touch p n := by
  obtain ⟨t, T, k, h1, h2⟩ := hS.used n hn
  obtain ⟨ht, _⟩ := List.getElem?_eq_some_iff.mp h1
  obtain ⟨p, hp, i, ho⟩ := hG.owned t ht
  refine ⟨p, hp, ?_⟩
  obtain ⟨hi, _⟩ := List.getElem?_eq_some_iff.mp ho.2
  have hi' : i < p.volumes.length := by rw [← hG.l2g p hp]; exact hi
  obtain ⟨T', h3, h4⟩ := hS.copy p hp i t _ ho.2 (getElem?_getD p.volumes (fun _ => 0) i hi')
  rw [h1] at h3
  have := Option.some.inj h3
  subst this
  exact ⟨i, _, k, ho.1, getElem?_getD p.volumes (fun _ => 0) i hi', by rw [h4 k, h2]⟩

theorem last_touch (n : ℕ) (hn : n < G.X.length) : ∃ A p B, parts = A ++ p :: B ∧ Touch p n ∧ ∀ q ∈ B, ¬ Touch q n := by
  have H : ∀ l : List (Part K), (∃ p ∈ l, Touch p n) → ∃ A p B, l = A ++ p :: B ∧ Touch p n ∧ ∀ q ∈ B, ¬ Touch q n := by
    intro l
    induction l with
    | nil => rintro ⟨p, hp, _⟩; simp at hp
    | cons p l ih =>
      rintro ⟨q, hq, hqn⟩
      by_cases h : ∃ q ∈ l, Touch q n
      · obtain ⟨A, r, B, h1, h2, h3⟩ := ih h
        exact ⟨p :: A, r, B, by rw [h1]; rfl, h2, h3⟩
      · push Not at h
        rcases List.mem_cons.mp hq with rfl | hq
        · exact ⟨[], q, l, rfl, hqn, h⟩
        · exact absurd hqn (h q hq)
  exact H parts (exists_touch hG hS n hn)

/-- Values at nodes. -/
theorem node_right (val : Part K → List K) (hv : ∀ p ∈ parts, (val p).length = p.nodeL2g.length) :
    ∃ out, scatterAll (smoothNode fun p => some (val p)) parts (List.replicate G.X.length 0) = some out ∧
      NodeRight G parts val out := by
  have hf : ∀ p ∈ parts, smoothNode (fun p => some (val p)) p =
      some (p.ownNodes.map fun m => p.nodeL2g.getD m 0, p.ownNodes.map fun m => (val p).getD m 0) := by
    intro p hp
    have h1 := gather_ok p.nodeL2g 0 p.ownNodes (fun m hm => ownNodes_lt hG hS p hp m hm)
    have h2 := gather_ok (val p) 0 p.ownNodes (fun m hm => by rw [hv p hp]; exact ownNodes_lt hG hS p hp m hm)
    simp only [smoothNode, h1, h2]
  obtain ⟨out, h1, h2⟩ := scatterAll_ok (smoothNode fun p => some (val p)) parts (List.replicate G.X.length 0) (fun p hp =>
    ⟨_, _, hf p hp, by simp, fun j hj => by
      obtain ⟨m, hm, rfl⟩ := List.mem_map.mp hj
      have := ownNodes_lt hG hS p hp m hm
      simpa using hS.range p hp _ (List.mem_of_getElem? (getElem?_getD _ 0 _ this))⟩)
  refine ⟨out, h1, by simpa using h2, ?_⟩
  intro n hn
  obtain ⟨A, p, B, hparts, ht, hB⟩ := last_touch hG hS n hn
  have hp : p ∈ parts := by rw [hparts]; simp
  obtain ⟨m, hm, hmn⟩ := (touch_iff hG hS p hp n).mp ht
  have hml := ownNodes_lt hG hS p hp m hm
  refine ⟨A, p, B, hparts, ht, hB, m, by rw [getElem?_getD _ 0 _ hml, hmn], ?_⟩
  rw [getElem?_getD (val p) 0 m (by rw [hv p hp]; exact hml)]
  have hw : ∀ q ∈ parts, writesOf (smoothNode (fun p => some (val p)) q) =
      q.ownNodes.map fun m => (q.nodeL2g.getD m 0, (val q).getD m 0) := by
    intro q hq
    rw [hf q hq]
    simp only [writesOf]
    rw [zip_maps]
  rw [hparts] at h1
  refine scatterAll_last _ A B p _ out h1 n (by simpa using hn) _ ?_ ?_ ?_
  · intro w hwm hwn
    rw [hw p hp] at hwm
    obtain ⟨m', hm', rfl⟩ := List.mem_map.mp hwm
    simp only at hwn ⊢
    have hml' := ownNodes_lt hG hS p hp m' hm'
    have : m' = m := by
      have hnd := hS.nodup p hp
      rw [List.getD_eq_getElem _ 0 hml'] at hwn
      rw [List.getD_eq_getElem _ 0 hml] at hmn
      exact (List.Nodup.getElem_inj_iff hnd).mp (hwn.trans hmn.symm)
    rw [this]
  · exact ⟨_, by rw [hw p hp]; exact List.mem_map_of_mem hm, hmn⟩
  · intro q hq w hwm hwn
    have hq' : q ∈ parts := by rw [hparts]; simp [hq]
    rw [hw q hq'] at hwm
    obtain ⟨m', hm', rfl⟩ := List.mem_map.mp hwm
    exact hB q hq ((touch_iff hG hS q hq' n).mpr ⟨m', hm', hwn⟩)

/-- Coordinates of nodes. -/
theorem point_right (coord : Part K → List K) (Z : List K) (hZ : Z.length = G.X.length)
    (hc : ∀ p ∈ parts, (coord p).length = p.nodeL2g.length ∧ ∀ i n : ℕ, p.nodeL2g[i]? = some n → (coord p)[i]? = Z[n]?) :
    scatterAll (smoothPoint coord) parts (List.replicate G.X.length 0) = some Z := by
  obtain ⟨out, h1, h2⟩ := scatterAll_ok (smoothPoint coord) parts (List.replicate G.X.length 0) (fun p hp =>
    ⟨p.nodeL2g, coord p, rfl, (hc p hp).1.symm, fun n hn => by simpa using hS.range p hp n hn⟩)
  rw [h1]
  congr 1
  apply List.ext_getElem?
  intro n
  by_cases hn : n < G.X.length
  · have hz : n < Z.length := by rw [hZ]; exact hn
    rw [List.getElem?_eq_getElem hz]
    obtain ⟨p, hp, i, v, k, _, _, h3⟩ := exists_touch hG hS n hn
    refine scatterAll_get _ parts _ out h1 n (by simpa using hn) _ ?_ ?_
    · intro q hq w hw hwn
      simp only [smoothPoint, writesOf] at hw
      obtain ⟨j, hj, rfl⟩ := List.getElem_of_mem hw
      simp only [List.getElem_zip] at hwn ⊢
      simp only [List.length_zip, lt_min_iff] at hj
      have := (hc q hq).2 j n (by rw [List.getElem?_eq_getElem hj.1, hwn])
      rw [List.getElem?_eq_getElem hj.2, List.getElem?_eq_getElem hz] at this
      exact Option.some.inj this
    · obtain ⟨h4, h5⟩ := List.getElem?_eq_some_iff.mp h3
      have h6 : v k < (coord p).length := by rw [(hc p hp).1]; exact h4
      refine ⟨p, hp, (p.nodeL2g[v k], (coord p)[v k]), ?_, h5⟩
      simp only [smoothPoint, writesOf]
      rw [List.mem_iff_getElem]
      exact ⟨v k, by simp [h4, h6], by simp⟩
  · have : out.length = G.X.length := by simpa using h2
    rw [List.getElem?_eq_none (by omega), List.getElem?_eq_none (by omega)]

/-- The triangles. -/
theorem triangles_right : scatterAll smoothTri parts (List.replicate G.tris.length fun _ => 0) = some G.tris := by
  have hf : ∀ p ∈ parts, smoothTri p = some (p.ones.map fun i => p.triL2g.getD i 0,
      p.ones.map fun i => (![p.nodeL2g.getD ((p.volumes.getD i fun _ => 0) 0) 0, p.nodeL2g.getD ((p.volumes.getD i fun _ => 0) 1) 0,
        p.nodeL2g.getD ((p.volumes.getD i fun _ => 0) 2) 0] : Fin 3 → ℕ)) := by
    intro p hp
    have hin : ∀ i ∈ p.ones, ∀ k, (p.volumes.getD i fun _ => 0) k < p.nodeL2g.length := by
      intro i hi k
      have hil := ones_lt p i hi
      rw [hG.full p hp] at hil
      exact ownNodes_lt hG hS p hp _ ((mem_ownNodes hG p hp _).mpr ⟨i, _, k, (mem_ones p i).mp hi, getElem?_getD _ _ _ hil, rfl⟩)
    have hg : ∀ k, gather p.nodeL2g ((compress p.full p.volumes).map (· k)) =
        some (p.ones.map fun i => p.nodeL2g.getD ((p.volumes.getD i fun _ => 0) k) 0) := by
      intro k
      rw [compress_ones p (hG.flags p hp) p.volumes (fun _ => 0) (hG.full p hp).symm, List.map_map]
      rw [gather_ok p.nodeL2g 0 _ (fun m hm => by
        obtain ⟨i, hi, rfl⟩ := List.mem_map.mp hm
        exact hin i hi k), List.map_map]
      rfl
    simp only [smoothTri, hg, compress_ones p (hG.flags p hp) p.triL2g 0 (by rw [hG.l2g p hp, hG.full p hp])]
    rw [zipWith3_maps]
  obtain ⟨out, h1, h2, h3⟩ := tri_right hG (fun _ => 0) smoothTri _ hf
  rw [h1]
  congr 1
  apply List.ext_getElem?
  intro t
  by_cases ht : t < G.tris.length
  · obtain ⟨p, hp, i, ho⟩ := hG.owned t ht
    rw [h3 p hp i t ho]
    obtain ⟨hi, _⟩ := List.getElem?_eq_some_iff.mp ho.2
    have hi' : i < p.volumes.length := by rw [← hG.l2g p hp]; exact hi
    obtain ⟨T, h4, h5⟩ := hS.copy p hp i t _ ho.2 (getElem?_getD p.volumes (fun _ => 0) i hi')
    rw [h4]
    congr 1
    funext k
    have : ∀ k, p.nodeL2g.getD ((p.volumes.getD i fun _ => 0) k) 0 = T k := by
      intro k
      rw [List.getD_eq_getElem?_getD, h5 k]; rfl
    fin_cases k <;> simp only [this] <;> rfl
  · rw [List.getElem?_eq_none (by omega), List.getElem?_eq_none (by omega)]

end Layers

/-- All quantities of one kind, given that arrays are put together rightly. -/
theorem mergeVars_right (layer : (Part K → Option (List K)) → Part K → Option (List ℕ × List K))
    (hcongr : ∀ (a b : Part K → Option (List K)) (p : Part K), a p = b p → layer a p = layer b p)
    (sel : Part K → String → Option (Stored K)) (len : Part K → ℕ) (size nsteps : ℕ) (first : Part K) (rest : List (Part K))
    (Right : (Part K → List K) → List K → Prop)
    (hlayer : ∀ val : Part K → List K, (∀ p ∈ first :: rest, (val p).length = len p) →
      ∃ out, scatterAll (layer fun p => some (val p)) (first :: rest) (List.replicate size 0) = some out ∧ Right val out)
    (hu : Uniform sel len nsteps (first :: rest)) (hclear : ∀ n v, sel first n = some (.static v) → v.length ≠ nsteps) :
    ∃ out, mergeVars layer sel size nsteps first (first :: rest) = some out ∧ VarsRight Right sel nsteps (first :: rest) out := by
  have hst : ∀ n, ∀ val : Part K → List K, (∀ p ∈ first :: rest, sel p n = some (.static (val p))) →
      ∃ v, mergeVar layer sel size nsteps first (first :: rest) n = some (.static v) ∧ Right val v := by
    intro n val hval
    have hfirst := hval first (by simp)
    have hlen : ∀ p ∈ first :: rest, (val p).length = len p := by
      intro p hp
      rcases hu n with h | ⟨val', h⟩ | ⟨val', h⟩
      · exact absurd (hval p hp) (by rw [h p hp]; simp)
      · have := (h p hp).1
        rw [hval p hp] at this
        have := Option.some.inj this
        injection this with this
        rw [this]; exact (h p hp).2
      · have := (h p hp).1
        rw [hval p hp] at this
        simp at this
    obtain ⟨out, h1, h2⟩ := hlayer val hlen
    refine ⟨out, ?_, h2⟩
    have hne : ¬ nsteps = (Stored.static (val first)).len := fun e => hclear n _ hfirst e.symm
    have : scatterAll (layer (staticValue sel n)) (first :: rest) (List.replicate size 0) = some out := by
      rw [← h1]
      apply scatterAll_congr
      intro p hp
      apply hcongr
      simp only [staticValue, hval p hp]
    simp only [mergeVar, hfirst, if_neg hne, this]
  have hdy : ∀ n, ∀ val : Part K → List (List K), (∀ p ∈ first :: rest, sel p n = some (.dynamic (val p))) →
      ∃ rows, mergeVar layer sel size nsteps first (first :: rest) n = some (.dynamic rows) ∧ rows.length = nsteps ∧
        ∀ s < nsteps, ∃ row, rows[s]? = some row ∧ Right (fun p => (val p).getD s []) row := by
    intro n val hval
    have hfirst := hval first (by simp)
    have hlen : ∀ p ∈ first :: rest, (val p).length = nsteps ∧ ∀ row ∈ val p, row.length = len p := by
      intro p hp
      rcases hu n with h | ⟨val', h⟩ | ⟨val', h⟩
      · exact absurd (hval p hp) (by rw [h p hp]; simp)
      · have := (h p hp).1
        rw [hval p hp] at this
        simp at this
      · have := (h p hp).1
        rw [hval p hp] at this
        have := Option.some.inj this
        injection this with this
        rw [this]; exact (h p hp).2
    have hs : ∀ s < nsteps, ∃ out, scatterAll (layer (dynamicValue sel n s)) (first :: rest) (List.replicate size 0) = some out ∧
        Right (fun p => (val p).getD s []) out := by
      intro s hs
      obtain ⟨out, h1, h2⟩ := hlayer (fun p => (val p).getD s []) (fun p hp => by
        obtain ⟨h3, h4⟩ := hlen p hp
        exact h4 _ (List.mem_of_getElem? (getElem?_getD _ [] _ (by omega))))
      refine ⟨out, ?_, h2⟩
      rw [← h1]
      apply scatterAll_congr
      intro p hp
      apply hcongr
      simp only [dynamicValue, hval p hp]
      exact getElem?_getD _ [] _ (by rw [(hlen p hp).1]; exact hs)
    obtain ⟨rows, h1, h2, h3⟩ := mapM_ok (fun i => scatterAll (layer (dynamicValue sel n i)) (first :: rest) (List.replicate size 0))
      (List.range nsteps) (fun s hs' => by
        obtain ⟨out, h, _⟩ := hs s (List.mem_range.mp hs')
        exact ⟨out, h⟩)
    refine ⟨rows, ?_, by simpa using h2, ?_⟩
    · have : nsteps = (Stored.dynamic (val first)).len := (hlen first (by simp)).1.symm
      simp only [mergeVar, hfirst, if_pos this, h1]
    · intro s hs'
      obtain ⟨row, hr1, hr2⟩ := h3 s s (by simp [hs'])
      obtain ⟨out, ho1, ho2⟩ := hs s hs'
      rw [ho1] at hr1
      have := Option.some.inj hr1
      subst this
      exact ⟨out, hr2, ho2⟩
  obtain ⟨out, ho, _, _⟩ := mapM_ok (fun n => (mergeVar layer sel size nsteps first (first :: rest) n).map fun v => (n, v))
    (quantityNames.filter fun n => (sel first n).isSome) (fun n hn => by
      have hn2 := (List.mem_filter.mp hn).2
      rcases hu n with h | ⟨val, h⟩ | ⟨val, h⟩
      · rw [h first (by simp)] at hn2; simp at hn2
      · obtain ⟨v, h1, _⟩ := hst n val (fun p hp => (h p hp).1)
        exact ⟨_, by rw [h1]; rfl⟩
      · obtain ⟨v, h1, _⟩ := hdy n val (fun p hp => (h p hp).1)
        exact ⟨_, by rw [h1]; rfl⟩)
  obtain ⟨hl1, hl2⟩ := lookup_mapM (mergeVar layer sel size nsteps first (first :: rest)) _ out ho
  have hnames : ∀ n ∈ heldNames, n ∈ quantityNames := by decide
  refine ⟨out, ho, ?_, ?_, ?_⟩
  · intro n hn
    apply hl2
    intro h
    have := (List.mem_filter.mp h).2
    rw [hn first (by simp)] at this
    simp at this
  · intro n hn val hval
    obtain ⟨v, h1, h2⟩ := hst n val hval
    refine ⟨v, ?_, h2⟩
    rw [← h1]
    exact hl1 n (List.mem_filter.mpr ⟨hnames n hn, by rw [hval first (by simp)]; rfl⟩)
  · intro n hn val hval
    obtain ⟨rows, h1, h2, h3⟩ := hdy n val hval
    refine ⟨rows, ?_, h2, h3⟩
    rw [← h1]
    exact hl1 n (List.mem_filter.mpr ⟨hnames n hn, by rw [hval first (by simp)]; rfl⟩)

variable [FloorRing K]

/-- **C87.** Files of a parallel run in the smooth format (one value per node) are merged into the file of the whole mesh: its
triangles and points, the times, every value at a triangle is its owner's, every value at a node is that of the last processor owning
a triangle there. -/
theorem C87_smooth (G : Whole K) (first : Part K) (rest : List (Part K)) (hG : Pieces G (first :: rest))
    (hS : SmoothFiles G (first :: rest)) (hfmt : 3 * first.volumes.length ≠ first.nodeL2g.length)
    (hu : Uniform Part.vars (fun p => p.nodeL2g.length) first.times.length (first :: rest))
    (huc : Uniform Part.varsC (fun p => p.volumes.length) first.times.length (first :: rest))
    (hclear : first.times.length ≠ first.nodeL2g.length ∧ first.times.length ≠ first.volumes.length) :
    ∃ m, mergeParallel (first :: rest) = some m ∧ m.volumes = G.tris ∧ m.x = G.X ∧ m.y = G.Y ∧ m.times = first.times ∧
      VarsRight (NodeRight G (first :: rest)) Part.vars first.times.length (first :: rest) m.vars ∧
      VarsRight (TriRight G (first :: rest)) Part.varsC first.times.length (first :: rest) m.varsC := by
  have hf : first ∈ first :: rest := by simp
  have hfmt' : ¬ 3 * first.volumes.length = first.x.length := by rw [(hS.xs first hf).1]; exact hfmt
  have clear : ∀ (sel : Part K → String → Option (Stored K)) (len : Part K → ℕ), Uniform sel len first.times.length (first :: rest) →
      first.times.length ≠ len first → ∀ n v, sel first n = some (.static v) → v.length ≠ first.times.length := by
    intro sel len h hne n v hv
    rcases h n with h | ⟨val, h⟩ | ⟨val, h⟩
    · rw [h first hf] at hv; simp at hv
    · have := h first hf
      rw [this.1] at hv
      have e := Option.some.inj hv
      injection e with e
      rw [← e, this.2]; exact fun e => hne e.symm
    · have := h first hf
      rw [this.1] at hv; simp at hv
  obtain ⟨q, hq1, hq2⟩ := mergeVars_right smoothNode (fun a b p h => by simp only [smoothNode, h]) Part.vars (fun p => p.nodeL2g.length)
    G.X.length first.times.length first rest (NodeRight G (first :: rest)) (fun val hv => node_right hG hS val hv) hu
    (clear _ _ hu hclear.1)
  obtain ⟨c, hc1, hc2⟩ := mergeVars_right smoothCentroid (fun a b p h => by simp only [smoothCentroid, h]) Part.varsC (fun p => p.volumes.length)
    G.tris.length first.times.length first rest (TriRight G (first :: rest))
    (fun val hv => centroid_right hG smoothCentroid (fun val p hp hl => smoothCentroid_eq hG val p hp hl) val hv) huc
    (clear _ _ huc hclear.2)
  have hx := point_right hG hS Part.x G.X rfl (fun p hp => hS.xs p hp)
  have hy := point_right hG hS Part.y G.Y hG.same (fun p hp => hS.ys p hp)
  have ht := triangles_right hG hS
  refine ⟨⟨trunc first.starttime, first.times, true, G.tris, G.X, G.Y, q, c⟩, ?_, rfl, rfl, rfl, rfl, hq2, hc2⟩
  simp only [mergeParallel, if_neg hfmt', mergeSmooth, hG.nTri first hf, hG.nNode first hf, hx, hy, ht, hq1, hc1]

/-- **C87.** Where the processors agree on the value at a node, that value is in the merged file; values at nodes a processor only
knows through copied triangles are never used. -/
theorem C87_agreed (G : Whole K) (parts : List (Part K)) (val : Part K → List K) (out : List K) (h : NodeRight G parts val out)
    (n : ℕ) (hn : n < G.X.length) (c : K) (hc : ∀ p ∈ parts, Touch p n → ∀ i : ℕ, p.nodeL2g[i]? = some n → (val p)[i]? = some c) :
    out[n]? = some c := by
  obtain ⟨A, p, B, h1, h2, _, i, h3, h4⟩ := h.2 n hn
  rw [h4]
  exact hc p (by rw [h1]; simp) h2 i h3

/-- **C87.** Files in the non-smooth format (three values per triangle) are merged into a file of that format: triangle `t` has the
points `3t`, `3t+1`, `3t+2` with the coordinates of its corners, and every value at a corner or a triangle is its owner's. -/
theorem C87_plain (G : Whole K) (first : Part K) (rest : List (Part K)) (hG : Pieces G (first :: rest))
    (hP : PlainFiles G (first :: rest))
    (hu : Uniform Part.vars (fun p => 3 * p.volumes.length) first.times.length (first :: rest))
    (huc : Uniform Part.varsC (fun p => p.volumes.length) first.times.length (first :: rest))
    (hclear : first.times.length ≠ 3 * first.volumes.length ∧ first.times.length ≠ first.volumes.length) :
    ∃ m, mergeParallel (first :: rest) = some m ∧ m.times = first.times ∧ m.volumes.length = G.tris.length ∧
      m.x.length = 3 * G.tris.length ∧ m.y.length = 3 * G.tris.length ∧
      (∀ (t : ℕ) (T : Fin 3 → ℕ), G.tris[t]? = some T → ∃ v, m.volumes[t]? = some v ∧
        ∀ k : Fin 3, v k = 3 * t + k ∧ m.x[v k]? = G.X[T k]? ∧ m.y[v k]? = G.Y[T k]?) ∧
      VarsRight (CornerRight G (first :: rest)) Part.vars first.times.length (first :: rest) m.vars ∧
      VarsRight (TriRight G (first :: rest)) Part.varsC first.times.length (first :: rest) m.varsC := by
  have hf : first ∈ first :: rest := by simp
  have hfmt' : 3 * first.volumes.length = first.x.length := ((hP.xs first hf).1).symm
  have clear : ∀ (sel : Part K → String → Option (Stored K)) (len : Part K → ℕ), Uniform sel len first.times.length (first :: rest) →
      first.times.length ≠ len first → ∀ n v, sel first n = some (.static v) → v.length ≠ first.times.length := by
    intro sel len h hne n v hv
    rcases h n with h | ⟨val, h⟩ | ⟨val, h⟩
    · rw [h first hf] at hv; simp at hv
    · have := h first hf
      rw [this.1] at hv
      have e := Option.some.inj hv
      injection e with e
      rw [← e, this.2]; exact fun e => hne e.symm
    · have := h first hf
      rw [this.1] at hv; simp at hv
  obtain ⟨q, hq1, hq2⟩ := mergeVars_right plainVertex (fun a b p h => by simp only [plainVertex, h]) Part.vars (fun p => 3 * p.volumes.length)
    (3 * G.tris.length) first.times.length first rest (CornerRight G (first :: rest)) (fun val hv => corner_right hG val hv) hu
    (clear _ _ hu hclear.1)
  obtain ⟨c, hc1, hc2⟩ := mergeVars_right plainCentroid (fun a b p h => by simp only [plainCentroid, h]) Part.varsC (fun p => p.volumes.length)
    G.tris.length first.times.length first rest (TriRight G (first :: rest))
    (fun val hv => centroid_right hG plainCentroid (fun val p hp hl => plainCentroid_eq hG val p hp hl) val hv) huc
    (clear _ _ huc hclear.2)
  obtain ⟨x, hx1, hx2⟩ := corner_right hG Part.x (fun p hp => (hP.xs p hp).1)
  obtain ⟨y, hy1, hy2⟩ := corner_right hG Part.y (fun p hp => (hP.ys p hp).1)
  refine ⟨⟨trunc first.starttime, first.times, true, (List.range G.tris.length).map (fun t => ![3 * t, 3 * t + 1, 3 * t + 2]), x, y, q, c⟩,
    ?_, rfl, by simp, hx2.1, hy2.1, ?_, hq2, hc2⟩
  · simp only [mergeParallel, if_pos hfmt', mergePlain, hG.nTri first hf, hx1, hy1, hq1, hc1]
  · intro t T hT
    obtain ⟨ht, _⟩ := List.getElem?_eq_some_iff.mp hT
    refine ⟨![3 * t, 3 * t + 1, 3 * t + 2], by simp [ht], ?_⟩
    intro k
    have e : (![3 * t, 3 * t + 1, 3 * t + 2] : Fin 3 → ℕ) k = 3 * t + k := by fin_cases k <;> rfl
    obtain ⟨p, hp, i, ho⟩ := hG.owned t ht
    refine ⟨e, ?_, ?_⟩
    · rw [e, hx2.2 p hp i t k ho]
      exact (hP.xs p hp).2 i t T k ho.2 hT
    · rw [e, hy2.2 p hp i t k ho]
      exact (hP.ys p hp).2 i t T k ho.2 hT

/-- **C87.** The merged file starts at the whole second below (for negative times above) the start of the run, so that absolute
times are right exactly if the run starts at a whole second. -/
theorem C87_start (first : Part K) (rest : List (Part K)) (m : Merged K) (hm : mergeParallel (first :: rest) = some m) :
    m.starttime = trunc first.starttime ∧ (m.starttime = first.starttime ↔ ∃ z : ℤ, first.starttime = z) ∧ m.smoothing = true := by
  have h : m.starttime = trunc first.starttime ∧ m.smoothing = true := by
    unfold mergeParallel at hm
    simp only at hm
    split at hm
    · unfold mergePlain at hm
      split at hm
      · simp at hm; rw [← hm]; exact ⟨rfl, rfl⟩
      · simp at hm
    · unfold mergeSmooth at hm
      split at hm
      · simp at hm; rw [← hm]; exact ⟨rfl, rfl⟩
      · simp at hm
  refine ⟨h.1, ?_, h.2⟩
  rw [h.1]
  unfold trunc
  constructor
  · intro h
    split_ifs at h
    · exact ⟨_, h.symm⟩
    · exact ⟨_, h.symm⟩
  · rintro ⟨z, hz⟩
    rw [hz]
    simp

end Verif.Sww
