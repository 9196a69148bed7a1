import Verif.ParRun.LemmasRun

/-!
# C69: a run on several processors equals the serial run
-/

set_option linter.unusedSectionVars false

namespace Verif.ParRun

open Verif.Flux (Q3 Edge Dom Consts FSt computeFluxes Method stepOf own)
open Verif.Extrap
open Verif.Mesh (MeshData BDict buildMesh Across)
open Verif.Par (Local distribute)

variable {K : Type*} [Field K] [LinearOrder K] [IsStrictOrderedRing K]

variable {N width : ℕ} {epart : List ℕ} {tris : List Verif.Mesh.Tri} {user : BDict} {m : MeshData} {parts : List Local}

/-- Entries of the neighbour arrays. -/
theorem nbrOf_some (n : ℕ) (m : MeshData) (T : Fin n) (i : Fin 3) (M : Edge n) :
    nbrOf n m (T, i) = some M ↔
      m.enum.neighbours (T.1, i.1) = (M.1.1 : ℤ) ∧ m.nbr.neighbourEdges (T.1, i.1) = (M.2.1 : ℤ) := by
  unfold nbrOf
  simp only
  constructor
  · intro h
    split_ifs at h with hc
    obtain ⟨h1, h2, h3, h4⟩ := hc
    cases h
    exact ⟨(Int.toNat_of_nonneg h1).symm, (Int.toNat_of_nonneg h3).symm⟩
  · rintro ⟨h1, h2⟩
    have hc : 0 ≤ m.enum.neighbours (T.1, i.1) ∧ (m.enum.neighbours (T.1, i.1)).toNat < n ∧
        0 ≤ m.nbr.neighbourEdges (T.1, i.1) ∧ (m.nbr.neighbourEdges (T.1, i.1)).toNat < 3 := by
      rw [h1, h2]
      refine ⟨Int.natCast_nonneg _, by simp, Int.natCast_nonneg _, by simp⟩
    rw [dif_pos hc]
    congr 1
    refine Prod.ext (Fin.ext ?_) (Fin.ext ?_)
    · show (m.enum.neighbours (T.1, i.1)).toNat = _
      rw [h1]; simp
    · show (m.nbr.neighbourEdges (T.1, i.1)).toNat = _
      rw [h2]; simp

theorem serialNo_val {N : ℕ} [NeZero N] (a : Local) (k : Tri a) (t : ℕ) (h : a.triL2g[k.1]? = some t) (ht : t < N) :
    (serialNo (N := N) a k).1 = t := by
  unfold serialNo
  rw [List.getD_eq_getElem?_getD, h]
  exact Nat.mod_eq_of_lt ht

/-- The circumstances. `W` is the serial domain on the mesh `m` made of `tris` and the tags `user`: velocities are extrapolated, all triangles are its own, there
are no river walls, all fluxes are refreshed at every call, and the timestep may grow. Tags are on outer edges only and none is called "ghost". -/
structure Setting (tris : List Verif.Mesh.Tri) (user : BDict) (m : MeshData) (parts : List Local) (W : World tris.length K)
    (pr : ∀ p : Fin parts.length, Proc (parts[p]).tris.length K) : Prop where
  corners : ∀ x ∈ tris, x.1 ≠ x.2.1 ∧ x.2.1 ≠ x.2.2 ∧ x.1 ≠ x.2.2
  outer : ∀ k e l j tag, ((k, e), tag) ∈ user → ¬ Across tris k e l j
  tags : ∀ key, m.boundary.lookup key ≠ some "ghost"
  nbr : W.G.nbr = nbrOf tris.length m
  normal : ∀ e e', W.G.nbr e = some e' → W.base.normal e' = (-(W.base.normal e).1, -(W.base.normal e).2)
  len : ∀ e e', W.G.nbr e = some e' → W.base.len e' = W.base.len e
  full : ∀ T, W.base.full T = true
  radius : ∀ T, 0 ≤ W.base.radius T
  eps : 0 ≤ W.cs.eps
  wall : ∀ e, W.base.wall e = false
  update : ∀ e, W.base.update e = true
  increase : W.base.allowIncrease = true
  vel : W.p.vel = true
  minH : 0 < W.p.minH
  phys : Verif.Friction.Physical W.fc
  marks : ∀ t q e, (W.arr t q).mark e < W.call t q
  marksL : ∀ p t q e, ((pr p).arr t q).mark e < (pr p).call t q

section

variable [NeZero tris.length] {W : World tris.length K}
  {pr : ∀ p : Fin parts.length, Proc (parts[p]).tris.length K}

variable (hu : (user.map Prod.fst).Nodup) (hm : buildMesh tris user = .ok m) (hlen : epart.length = tris.length)
  (h : distribute N width epart tris m.boundary = .ok parts)

include hu hm hlen h

omit [NeZero tris.length] in
/-- Number of a local triangle. -/
theorem number (p : Fin parts.length) (k : Tri parts[p]) : ∃ t, (parts[p]).triL2g[k.1]? = some t ∧ t < tris.length := by
  have ha : parts[p.1]? = some parts[p] := List.getElem?_eq_getElem p.2
  obtain ⟨hl, _⟩ := Verif.Par.C65_local_copies hu hm hlen h p _ ha
  have hk : k.1 < (parts[p]).triL2g.length := by rw [hl]; exact k.2
  refine ⟨(parts[p]).triL2g[k.1], List.getElem?_eq_getElem hk, ?_⟩
  exact ((((Verif.Par.C66_layers hu hm hlen h p _ ha).2 _).mp (List.getElem_mem hk))).lt

omit [NeZero tris.length] in
/-- Serial neighbours. -/
theorem serial_nbr (T : Fin tris.length) (i : Fin 3) (u : ℕ) (hn : m.enum.neighbours (T.1, i.1) = (u : ℤ)) :
    ∃ j : Fin 3, ∃ hu : u < tris.length, nbrOf tris.length m (T, i) = some (⟨u, hu⟩, j) := by
  obtain ⟨d, m', s, _⟩ := Verif.Par.distribute_ok hu hm hlen h
  obtain ⟨⟨j, hj⟩, _⟩ := (s.serial_neighbours _ _ _).mp hn
  have hb := (Verif.Mesh.buildMesh_ok hm).1
  obtain ⟨e1, e2⟩ := (Verif.Mesh.C05_neighbours_are_adjacent_triangles tris m.nbr hb T.1 i.1 u j).mpr hj
  obtain ⟨_, _, _, h4, _, h6⟩ := Verif.Mesh.C05_neighbour_symmetry tris m.nbr hb T.1 i.1 u j e1 e2
  exact ⟨⟨j, h6⟩, h4, (nbrOf_some _ _ _ _ _).mpr ⟨hn, e2⟩⟩

omit [NeZero tris.length] in
theorem hml (p : Fin parts.length) : buildMesh (parts[p]).tris (parts[p]).boundary = .ok (localMesh parts[p]) := by
  obtain ⟨ml, hml⟩ := Verif.Par.C67_accepted hu hm hlen h p _ (List.getElem?_eq_getElem p.2)
  have e : buildMesh (parts[p]).tris (parts[p]).boundary = .ok ml := hml
  unfold localMesh
  rw [e]

omit [NeZero tris.length] in
theorem Setting.plain (S : Setting tris user m parts W pr) : Plain W := by
  have hb := (Verif.Mesh.buildMesh_ok hm).1
  obtain ⟨d, m', s, _⟩ := Verif.Par.distribute_ok hu hm hlen h
  have hacr : ∀ e M, W.G.nbr e = some M → Across tris e.1.1 e.2.1 M.1.1 M.2.1 := by
    intro e M hM
    rw [S.nbr] at hM
    obtain ⟨h1, h2⟩ := (nbrOf_some _ _ e.1 e.2 _).mp hM
    obtain ⟨⟨j, hj⟩, _⟩ := (s.serial_neighbours _ _ _).mp h1
    obtain ⟨_, e2⟩ := (Verif.Mesh.C05_neighbours_are_adjacent_triangles tris m.nbr hb _ _ _ _).mpr hj
    have : j = M.2.1 := by omega
    rw [← this]
    exact hj
  have hno : NoSelf W.G.nbr := by
    intro e M hM he
    have ha := hacr e M hM
    obtain ⟨e1, _⟩ := (Verif.Mesh.C05_neighbours_are_adjacent_triangles tris m.nbr hb _ _ _ _).mpr ha
    obtain ⟨c1, c2, c3⟩ := S.corners tris[e.1.1] (List.getElem_mem e.1.2)
    refine Verif.Mesh.C05_not_own_neighbour tris m.nbr hb e.1.1 e.2.1 _ _ _ (List.getElem?_eq_getElem e.1.2) c1 c2 c3 ?_
    rw [e1, he]
  refine ⟨S.vel, S.minH, ?_, hno, S.normal, S.len, S.wall, S.update, S.increase, S.marks, S.phys⟩
  intro e M hM
  refine ⟨?_, fun hh => hno e M hM (by rw [hh])⟩
  obtain ⟨x, y, h1, h2⟩ := hacr e M hM
  have ha : Across tris M.1.1 M.2.1 e.1.1 e.2.1 := ⟨y, x, h2, h1⟩
  have hn : m.boundary.lookup (M.1.1, M.2.1) = none := by
    cases hl : m.boundary.lookup (M.1.1, M.2.1) with
    | none => rfl
    | some tag =>
      rcases (Verif.Mesh.C07_tags tris user hu m hm _ _ tag).mp hl with h' | ⟨_, _, _, h', _⟩
      · exact absurd ha (S.outer _ _ _ _ tag h')
      · exact absurd ⟨_, _, ha⟩ h'
  have e1 := (s.serial_neighbours M.1.1 M.2.1 e.1.1).mpr ⟨⟨_, ha⟩, hn⟩
  obtain ⟨_, e2⟩ := (Verif.Mesh.C05_neighbours_are_adjacent_triangles tris m.nbr hb _ _ _ _).mpr ha
  rw [S.nbr]
  exact (nbrOf_some _ _ M.1 M.2 e).mpr ⟨e1, e2⟩

/-- A processor's mesh sits inside the serial mesh. -/
theorem local_piece (S : Setting tris user m parts W pr) (p : Fin parts.length) :
    Piece W.G.nbr (nbrOf (parts[p]).tris.length (localMesh parts[p])) (serialNo parts[p]) := by
  have ha : parts[p.1]? = some parts[p] := List.getElem?_eq_getElem p.2
  have hnum := number hu hm hlen h p
  rw [S.nbr]
  refine ⟨?_, ?_, ?_⟩
  · intro k k' hkk
    obtain ⟨t, h1, h2⟩ := hnum k
    obtain ⟨t', h1', h2'⟩ := hnum k'
    have e1 := serialNo_val parts[p] k t h1 h2
    have e2 := serialNo_val parts[p] k' t' h1' h2'
    have : t = t' := by rw [← e1, ← e2, hkk]
    subst this
    have hnd := (Verif.Par.C66_layers hu hm hlen h p _ ha).1
    obtain ⟨b1, c1⟩ := List.getElem?_eq_some_iff.mp h1
    obtain ⟨b2, c2⟩ := List.getElem?_eq_some_iff.mp h1'
    exact Fin.ext ((List.Nodup.getElem_inj_iff hnd).mp (c1.trans c2.symm))
  · intro k i l j hl
    obtain ⟨t, h1, h2⟩ := hnum k
    obtain ⟨u, h1', h2'⟩ := hnum l
    obtain ⟨g1, g2⟩ := (nbrOf_some _ _ _ _ _).mp hl
    obtain ⟨c1, c2⟩ := Verif.Par.C67_neighbours hu hm hlen h p _ ha (localMesh parts[p]) (hml hu hm hlen h p) k.1 i.1 t l.1 u h1 h1'
    have d1 := c1.mp g1
    have d2 := c2 d1
    rw [nbrOf_some, serialNo_val parts[p] k t h1 h2, serialNo_val parts[p] l u h1' h2']
    exact ⟨d1, by rw [← d2]; exact g2⟩
  · intro k i l j hl
    obtain ⟨t, h1, h2⟩ := hnum k
    obtain ⟨u, h1', h2'⟩ := hnum l
    rw [nbrOf_some, serialNo_val parts[p] k t h1 h2, serialNo_val parts[p] l u h1' h2'] at hl
    obtain ⟨d1, d2⟩ := hl
    obtain ⟨c1, c2⟩ := Verif.Par.C67_neighbours hu hm hlen h p _ ha (localMesh parts[p]) (hml hu hm hlen h p) k.1 i.1 t l.1 u h1 h1'
    rw [nbrOf_some]
    exact ⟨c1.mpr d1, by rw [c2 d1]; exact d2⟩

/-- The local domain is a copy. -/
theorem local_copy (S : Setting tris user m parts W pr) (p : Fin parts.length) :
    Copy W (localWorld W parts[p] (pr p)) (serialNo parts[p]) := by
  have ha : parts[p.1]? = some parts[p] := List.getElem?_eq_getElem p.2
  have hrow : ∀ k : Tri parts[p], row (N := tris.length) parts[p] k = serialNo parts[p] k := by
    intro k
    unfold row serialNo
    rw [(Verif.Par.C65_local_copies hu hm hlen h p _ ha).2.1]
  refine ⟨⟨local_piece hu hm hlen h S p, fun _ => rfl, fun _ => rfl, fun _ _ => rfl, fun _ _ => rfl⟩, rfl, rfl, rfl, rfl, ?_, ?_,
    fun _ _ => rfl, fun _ _ => rfl, fun _ => rfl, fun _ => rfl, fun _ => rfl, fun _ => rfl, rfl, S.marksL p, ?_⟩
  · intro k
    show W.bed (row parts[p] k) = _
    rw [hrow]
  · intro k
    simp only [localWorld, hrow]
  · intro t k i q hn
    show (if _ then _ else _) = _
    rw [if_neg]
    intro hg
    obtain ⟨T, h1, h2⟩ := number hu hm hlen h p k
    have hv := serialNo_val parts[p] k T h1 h2
    rcases (Verif.Par.C67_tags hu hm hlen h p _ ha (localMesh parts[p]) (hml hu hm hlen h p) k.1 i.1 T h1 "ghost").mp hg with h' | ⟨_, u, hu', _⟩
    · exact S.tags _ h'
    · rw [← hv] at hu'
      obtain ⟨j, _, hs⟩ := serial_nbr hu hm hlen h (serialNo parts[p] k) i u hu'
      rw [S.nbr, hs] at hn
      cases hn

/-- Own triangles lie deep inside what a processor holds. -/
theorem local_deep (S : Setting tris user m parts W pr) (p : Fin parts.length) (k : Tri parts[p]) (hk : k.1 < (parts[p]).nFull) :
    inns W.G.nbr (max width 1) (held (fun p => serialNo parts[p]) p) (serialNo parts[p] k) := by
  have ha : parts[p.1]? = some parts[p] := List.getElem?_eq_getElem p.2
  have hmem := (Verif.Par.C66_layers hu hm hlen h p _ ha).2
  set cut := fun t e => ∃ tag, ((t, e), tag) ∈ user
  set mine := fun t => epart.getD t 0 = p.1
  have more : ∀ n n' t, Verif.Par.Within tris cut mine n t → n ≤ n' → Verif.Par.Within tris cut mine n' t := by
    intro n n' t hw hle
    induction n' with
    | zero => obtain rfl : n = 0 := by omega
              exact hw
    | succ n' ih =>
      rcases Nat.lt_or_ge n (n' + 1) with hl | hg
      · exact .stay (ih (by omega))
      · obtain rfl : n = n' + 1 := by omega
        exact hw
  have main : ∀ j n (T : Fin tris.length), Verif.Par.Within tris cut mine n T.1 → n + j ≤ max width 1 →
      inns W.G.nbr j (held (fun p => serialNo parts[p]) p) T := by
    intro j
    induction j with
    | zero =>
      intro n T hw hle
      have := (hmem T.1).mpr (more n _ _ hw hle)
      obtain ⟨k, hk, hkT⟩ := List.mem_iff_getElem.mp this
      have hlen' := (Verif.Par.C65_local_copies hu hm hlen h p _ ha).1
      refine ⟨⟨k, by rw [← hlen']; exact hk⟩, Fin.ext ?_⟩
      exact serialNo_val parts[p] _ T.1 (by rw [List.getElem?_eq_getElem hk, hkT]) T.2
    | succ j ih =>
      intro n T hw hle
      refine ⟨ih n T hw (by omega), ?_⟩
      intro i M hM
      rw [S.nbr, nbrOf_some] at hM
      obtain ⟨d, m', s, _⟩ := Verif.Par.distribute_ok hu hm hlen h
      obtain ⟨⟨j', hj'⟩, hn⟩ := (s.serial_neighbours _ _ _).mp hM.1
      refine ih (n + 1) M.1 (.step hw hj' ?_) (by omega)
      rintro ⟨tag, htag⟩
      rw [(Verif.Mesh.C07_tags tris user hu m hm T.1 i.1 tag).mpr (Or.inl htag)] at hn
      cases hn
  obtain ⟨t, h1, h2⟩ := number hu hm hlen h p k
  have hv := serialNo_val parts[p] k t h1 h2
  have hown := (Verif.Par.C65_every_triangle_owned_once hu hm hlen h t h2).2 p.1 k.1 _ ha hk h1
  refine main _ 0 _ ?_ (by omega)
  rw [hv]
  exact .start h2 hown.symm

/-- Everything the runs need. -/
theorem sound (S : Setting tris user m parts W pr) (r : ℕ) (h1 : 1 ≤ r) (hr : r ≤ max width 1)
    (hreach : ∀ p, Reaches r W (localWorld W parts[p] (pr p)) (serialNo parts[p])) :
    Sound W (fun p => localWorld W parts[p] (pr p)) (fun p => serialNo parts[p]) r (max width 1) where
  plain := S.plain hu hm hlen h
  full := S.full
  radius := S.radius
  eps := S.eps
  copy := local_copy hu hm hlen h S
  one := h1
  wide := hr
  reach := hreach
  order := by
    intro p k k' hk hk'
    have a : k.1 < (parts[p]).nFull := of_decide_eq_true hk
    have b : ¬ k'.1 < (parts[p]).nFull := of_decide_eq_false hk'
    exact Fin.lt_def.mpr (by omega)
  deep := fun p k hk => local_deep hu hm hlen h S p k (of_decide_eq_true hk)
  owner := by
    intro T
    obtain ⟨⟨p, k⟩, ⟨a, ha, hk, hT⟩, _⟩ := (Verif.Par.C65_every_triangle_owned_once hu hm hlen h T.1 T.2).1
    obtain ⟨hp, rfl⟩ := List.getElem?_eq_some_iff.mp ha
    have hlen' := (Verif.Par.C65_local_copies hu hm hlen h p _ ha).1
    have hk' : k < (parts[p]).tris.length := by
      rw [← hlen']; exact (List.getElem?_eq_some_iff.mp hT).1
    exact ⟨⟨p, hp⟩, ⟨k, hk'⟩, decide_eq_true hk, Fin.ext (serialNo_val parts[p] ⟨k, hk'⟩ T.1 hT T.2)⟩
  some := Nat.pos_of_ne_zero (NeZero.ne _)
  exch := by
    intro q Q hq p k j
    obtain ⟨t, h1, h2⟩ := number hu hm hlen h p k
    obtain ⟨⟨p', l⟩, ⟨b, hb, hl, hT⟩, _⟩ := (Verif.Par.C65_every_triangle_owned_once hu hm hlen h t h2).1
    obtain ⟨hp', rfl⟩ := List.getElem?_eq_some_iff.mp hb
    have ha : parts[p.1]? = some parts[p] := List.getElem?_eq_getElem p.2
    have hlen' := (Verif.Par.C65_local_copies hu hm hlen h p' _ hb).1
    have hl' : l < (parts[p']).tris.length := by
      rw [← hlen']; exact (List.getElem?_eq_some_iff.mp hT).1
    have he := Verif.Par.C68_exchange hu hm hlen h (table q) p.1 p' _ _ ha hb k.1 l t h1 hT hl
    show Verif.Par.exchange parts (table q) p.1 k.1 j = _
    rw [he]
    have ht : table q p' l j = q ⟨⟨p', hp'⟩, (⟨l, hl'⟩, j)⟩ := by
      unfold table
      rw [dif_pos ⟨hp', hl'⟩]
    rw [ht, hq ⟨p', hp'⟩ ⟨l, hl'⟩ (decide_eq_true hl) j]
    have e1 := serialNo_val parts[p] k t h1 h2
    have e2 := serialNo_val (parts[p']) ⟨l, hl'⟩ t hT h2
    have : serialNo (N := tris.length) (parts[p']) ⟨l, hl'⟩ = serialNo parts[p] k := Fin.ext (e2.trans e1.symm)
    show Q (serialNo (parts[p']) ⟨l, hl'⟩, j) = _
    rw [this]

theorem handOut_all (q : Fin tris.length × Fin 3 → K) : AgreeAll (fun p => serialNo parts[p]) (handOut parts q) q := by
  intro p k j
  have ha : parts[p.1]? = some parts[p] := List.getElem?_eq_getElem p.2
  show q (row parts[p] k, j) = _
  unfold row serialNo
  rw [(Verif.Par.C65_local_copies hu hm hlen h p _ ha).2.1]

/-- C69: hand out the values of a serial domain to the processors and let both take the same sequence of steps (any of the three
methods, any choice of timestep) and yields. Then neither fails, the times are equal, and every processor has the serial values in its own
triangles. Three ghost layers are enough; if a `rk2` step leaves out its inner exchange, which it does from four layers on, six. -/
theorem C69_parallel_equals_serial (S : Setting tris user m parts W pr) (hw : 3 ≤ width) (es : List (Event K))
    (he : ∀ mth choose, Event.step mth choose ∈ es → (mth = .rk2 → width < 4 ∨ 6 ≤ width) ∧ ∀ x, 0 ≤ x → 0 ≤ choose x) (t : K)
    (q : Fin tris.length × Fin 3 → K) :
    ∃ t' q' Q', run (parEnv (fun p => localWorld W parts[p] (pr p)) width) es t (handOut parts q) = some (t', q') ∧
      run (serialEnv W width) es t q = some (t', Q') ∧
      ∀ p (k : Tri parts[p]), k.1 < (parts[p]).nFull → ∀ j, q' ⟨p, (k, j)⟩ = Q' (serialNo parts[p] k, j) := by
  have So := sound hu hm hlen h S 3 (by omega) (by omega) (fun p => reaches_three (local_copy hu hm hlen h S p) (S.plain hu hm hlen h))
  obtain ⟨t', q', Q', a, b, c⟩ := run_on So width es (fun mth choose hmem => by
    obtain ⟨x, y⟩ := he mth choose hmem
    exact ⟨fun e1 e2 => by have := x e1; omega, y⟩) t _ _ (handOut_all hu hm hlen h q).inv
  exact ⟨t', q', Q', a, b, fun p k hk j => c.1 p k (decide_eq_true hk) j⟩

/-- C69: with velocities not extrapolated into dry triangles (`beta_uh_dry` and `beta_vh_dry` zero) and no triangle with exactly two
boundary edges, the two layers used by default are enough. -/
theorem C69_two_layers (S : Setting tris user m parts W pr) (hw : 2 ≤ width) (hdu : W.p.betaUhDry ≤ 0) (hdv : W.p.betaVhDry ≤ 0)
    (hc : ∀ k, nb W.G k ≠ 2) (es : List (Event K)) (he : ∀ mth choose, Event.step mth choose ∈ es → ∀ x, 0 ≤ x → 0 ≤ choose x) (t : K)
    (q : Fin tris.length × Fin 3 → K) :
    ∃ t' q' Q', run (parEnv (fun p => localWorld W parts[p] (pr p)) width) es t (handOut parts q) = some (t', q') ∧
      run (serialEnv W width) es t q = some (t', Q') ∧
      ∀ p (k : Tri parts[p]), k.1 < (parts[p]).nFull → ∀ j, q' ⟨p, (k, j)⟩ = Q' (serialNo parts[p] k, j) := by
  have So := sound hu hm hlen h S 2 (by omega) (by omega)
    (fun p => reaches_two (local_copy hu hm hlen h S p) (S.plain hu hm hlen h) hdu hdv hc)
  obtain ⟨t', q', Q', a, b, c⟩ := run_on So width es (fun mth choose hmem =>
    ⟨fun _ e2 => by omega, he mth choose hmem⟩) t _ _ (handOut_all hu hm hlen h q).inv
  exact ⟨t', q', Q', a, b, fun p k hk j => c.1 p k (decide_eq_true hk) j⟩

end

end Verif.ParRun
