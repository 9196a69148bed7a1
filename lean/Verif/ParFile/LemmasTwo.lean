import Verif.ParFile.Lemmas
import Verif.ParFile.Spec

/-! The files of a distributed mesh are the pieces of it. -/

set_option linter.unusedSectionVars false

namespace Verif.ParFile

open Verif.Par
open Verif.Mesh (Tri BDict MeshData buildMesh)
open Verif.Sww (Part Stored Whole Own Pieces SmoothFiles PlainFiles Uniform VarsRight TriRight NodeRight CornerRight)

variable {K : Type*} [Field K] [LinearOrder K] [IsStrictOrderedRing K]
variable {N width : ℕ} {epart : List ℕ} {tris : List Tri} {user : BDict} {m : MeshData} {parts : List Local}

theorem mem_files (write : Local → Data K → Part K) (data : ℕ → Data K) (f : Part K) :
    f ∈ files write parts data ↔ ∃ p a, parts[p]? = some a ∧ f = write a (data p) := by
  unfold files
  simp only [List.mem_map, Prod.exists, List.mem_zipIdx_iff_getElem?]
  constructor
  · rintro ⟨a, p, h1, h2⟩; exact ⟨p, a, h1, h2.symm⟩
  · rintro ⟨p, a, h1, h2⟩; exact ⟨a, p, h1, h2.symm⟩

section

variable (hu : (user.map Prod.fst).Nodup) (hm : buildMesh tris user = .ok m) (hlen : epart.length = tris.length)
  (h : distribute N width epart tris m.boundary = .ok parts)

include hu hm hlen h

theorem flag_part (p : ℕ) (a : Local) (ha : parts[p]? = some a) (k : ℕ) :
    (fullFlag N a)[k]? = if k < a.nFull then some 1 else if k < a.tris.length then some 0 else none := by
  obtain ⟨d, m', s, hp⟩ := distribute_ok hu hm hlen h
  obtain ⟨_, rfl⟩ := (parts_get hp p a).mp ha
  exact flag_eq s p k

theorem nFull_le (p : ℕ) (a : Local) (ha : parts[p]? = some a) : a.nFull ≤ a.tris.length := by
  obtain ⟨d, m', s, hp⟩ := distribute_ok hu hm hlen h
  obtain ⟨_, rfl⟩ := (parts_get hp p a).mp ha
  rw [s.local_tris, List.length_map]
  have hfull : (localOf d m' (ghostsOf d m' width) p).nFull = (fullIds (procSum d.tpp p) (procSum d.tpp (p + 1))).length := by
    rw [fullIds_length]; rfl
  rw [hfull]; unfold ids; rw [List.length_append]; omega

theorem flag_length (p : ℕ) (a : Local) (ha : parts[p]? = some a) : (fullFlag N a).length = a.tris.length := by
  have h1 := nFull_le hu hm hlen h p a ha
  have h2 := fun k => flag_part hu hm hlen h p a ha k
  refine Nat.le_antisymm ?_ ?_
  · by_contra hc
    have := h2 a.tris.length
    rw [if_neg (by omega), if_neg (by omega)] at this
    exact absurd (List.getElem?_eq_none_iff.mp this) (by omega)
  · by_contra hc
    have := h2 (fullFlag N a).length
    rw [List.getElem?_eq_none (le_refl _)] at this
    split at this
    · cases this
    · rw [if_pos (by omega)] at this; cases this

theorem flag_one (p : ℕ) (a : Local) (ha : parts[p]? = some a) (k : ℕ) : (fullFlag N a)[k]? = some 1 ↔ k < a.nFull := by
  rw [flag_part hu hm hlen h p a ha k]
  by_cases hk : k < a.nFull
  · simp [hk]
  · simp only [hk, if_false, iff_false]
    split <;> simp

/-- Files written from a distributed mesh, in either format. -/
structure Writes (N : ℕ) (nTri nNode : ℕ) (write : Local → Data K → Part K) : Prop where
  full : ∀ a d, (write a d).full = fullFlag N a
  l2g : ∀ a d, (write a d).triL2g = a.triL2g
  nodes : ∀ a d, (write a d).nodeL2g = a.nodeL2g
  volumes : ∀ a d, (write a d).volumes.length = a.tris.length
  nTri : ∀ a d, (write a d).nTri = nTri
  nNode : ∀ a d, (write a d).nNode = nNode
  vars : ∀ a d, (write a d).vars = d.vars
  varsC : ∀ a d, (write a d).varsC = d.varsC

omit hu hm hlen h in
theorem smooth_writes (nTri : ℕ) (X Y : List K) (start : K) (times : List K) :
    Writes N nTri X.length (smoothFile N nTri X Y start times) :=
  ⟨fun _ _ => rfl, fun _ _ => rfl, fun _ _ => rfl, fun _ _ => by simp [smoothFile], fun _ _ => rfl, fun _ _ => rfl, fun _ _ => rfl, fun _ _ => rfl⟩

omit hu hm hlen h in
theorem plain_writes (nTri : ℕ) (X Y : List K) (start : K) (times : List K) :
    Writes N nTri X.length (plainFile N nTri X Y start times) :=
  ⟨fun _ _ => rfl, fun _ _ => rfl, fun _ _ => rfl, fun _ _ => by simp [plainFile], fun _ _ => rfl, fun _ _ => rfl, fun _ _ => rfl, fun _ _ => rfl⟩

theorem own_part {nTri nNode : ℕ} {write : Local → Data K → Part K} (hw : Writes N nTri nNode write) (p : ℕ) (a : Local)
    (ha : parts[p]? = some a) (d : Data K) (k t : ℕ) : Own (write a d) k t ↔ OwnTri a k t := by
  unfold Own OwnTri
  rw [hw.full, hw.l2g, flag_one hu hm hlen h p a ha]

theorem pieces {X Y : List K} (hP : Points tris X Y) {write : Local → Data K → Part K} (hw : Writes N tris.length X.length write)
    (data : ℕ → Data K) : Pieces (whole tris X Y) (files write parts data) := by
  have wl : (whole tris X Y).tris.length = tris.length := by simp [whole]
  refine ⟨hP.same, ?_, ?_, ?_, ?_, ?_, ?_, ?_, ?_⟩
  · intro f hf
    obtain ⟨p, a, ha, rfl⟩ := (mem_files write data f).mp hf
    rw [hw.nTri, wl]
  · intro f hf
    obtain ⟨p, a, ha, rfl⟩ := (mem_files write data f).mp hf
    rw [hw.nNode]; rfl
  · intro f hf
    obtain ⟨p, a, ha, rfl⟩ := (mem_files write data f).mp hf
    rw [hw.full, hw.volumes, flag_length hu hm hlen h p a ha]
  · intro f hf
    obtain ⟨p, a, ha, rfl⟩ := (mem_files write data f).mp hf
    rw [hw.l2g, hw.volumes]
    exact (C65_local_copies hu hm hlen h p a ha).1
  · intro f hf b hb
    obtain ⟨p, a, ha, rfl⟩ := (mem_files write data f).mp hf
    rw [hw.full] at hb
    obtain ⟨k, hk⟩ := List.mem_iff_getElem?.mp hb
    rw [flag_part hu hm hlen h p a ha] at hk
    split at hk
    · right; exact (Option.some.inj hk).symm
    · split at hk
      · left; exact (Option.some.inj hk).symm
      · cases hk
  · intro f hf t ht
    obtain ⟨p, a, ha, rfl⟩ := (mem_files write data f).mp hf
    rw [hw.l2g] at ht
    obtain ⟨k, hk⟩ := List.mem_iff_getElem?.mp ht
    obtain ⟨_, _, _, _, _, _, _, h2, _⟩ := (C65_local_copies hu hm hlen h p a ha).2.2.2.2.1 k t hk
    rw [wl]
    exact (List.getElem?_eq_some_iff.mp h2).1
  · intro t ht
    rw [wl] at ht
    obtain ⟨x, ⟨a, h1, h2, h3⟩, _⟩ := (C65_every_triangle_owned_once hu hm hlen h t ht).1
    exact ⟨_, (mem_files write data _).mpr ⟨x.1, a, h1, rfl⟩, x.2, (own_part hu hm hlen h hw x.1 a h1 _ _ _).mpr ⟨h2, h3⟩⟩
  · intro f hf g hg i j t hi hj
    obtain ⟨p, a, ha, rfl⟩ := (mem_files write data f).mp hf
    obtain ⟨q, b, hb, rfl⟩ := (mem_files write data g).mp hg
    have o1 := (own_part hu hm hlen h hw p a ha _ _ _).mp hi
    have o2 := (own_part hu hm hlen h hw q b hb _ _ _).mp hj
    have ht : t < tris.length := by
      obtain ⟨_, _, _, _, _, _, _, h2, _⟩ := (C65_local_copies hu hm hlen h p a ha).2.2.2.2.1 i t o1.2
      exact (List.getElem?_eq_some_iff.mp h2).1
    have := (C65_every_triangle_owned_once hu hm hlen h t ht).1.unique (y₁ := (p, i)) (y₂ := (q, j)) ⟨a, ha, o1⟩ ⟨b, hb, o2⟩
    obtain ⟨rfl, rfl⟩ := Prod.mk.inj this
    rw [ha] at hb
    cases hb
    exact ⟨rfl, rfl⟩

omit hu hm hlen h in
theorem asFn_corner (T : Tri) (k : Fin 3) : asFn T k = T.1 ∨ asFn T k = T.2.1 ∨ asFn T k = T.2.2 := by
  fin_cases k <;> simp [asFn]

theorem smooth {X Y : List K} (hP : Points tris X Y) (start : K) (times : List K) (data : ℕ → Data K) :
    SmoothFiles (whole tris X Y) (files (smoothFile N tris.length X Y start times) parts data) := by
  have inX : ∀ (p : ℕ) (a : Local), parts[p]? = some a → ∀ n ∈ a.nodes, n < X.length := by
    intro p a ha n hn
    obtain ⟨hl, _, _, _, hc, hus⟩ := C65_local_copies hu hm hlen h p a ha
    obtain ⟨i, hi, hin⟩ := List.getElem_of_mem hn
    obtain ⟨T, hT, hi'⟩ := hus i hi
    obtain ⟨k, hk, hkT⟩ := List.getElem_of_mem hT
    obtain ⟨n0, n1, n2, x, y, z, e1, e2, e3, e4, e5⟩ := hc k a.triL2g[k] (by rw [List.getElem?_eq_getElem])
    have hr := hP.range _ (List.mem_of_getElem? e2)
    rw [List.getElem?_eq_getElem hk, hkT] at e1
    cases e1
    have hg : a.nodes[i]? = some n := by rw [List.getElem?_eq_getElem hi, hin]
    rcases hi' with rfl | rfl | rfl
    · rw [hg] at e3; cases e3; exact hr.1
    · rw [hg] at e4; cases e4; exact hr.2.1
    · rw [hg] at e5; cases e5; exact hr.2.2
  have coord : ∀ (p : ℕ) (a : Local), parts[p]? = some a → ∀ Z : List K, Z.length = X.length → ∀ i n : ℕ, a.nodes[i]? = some n →
      (a.nodes.map fun n => Z.getD n 0)[i]? = Z[n]? := by
    intro p a ha Z hZ i n hn
    have := inX p a ha n (List.mem_of_getElem? hn)
    rw [List.getElem?_map, hn, Option.map_some, List.getD_eq_getElem?_getD, List.getElem?_eq_getElem (by omega)]
    rfl
  refine ⟨?_, ?_, ?_, ?_, ?_, ?_⟩
  · intro f hf
    obtain ⟨p, a, ha, rfl⟩ := (mem_files _ data f).mp hf
    obtain ⟨_, _, e, hn, _⟩ := C65_local_copies hu hm hlen h p a ha
    show a.nodeL2g.Nodup
    rw [e]; exact hn
  · intro f hf n hn
    obtain ⟨p, a, ha, rfl⟩ := (mem_files _ data f).mp hf
    obtain ⟨_, _, e, _⟩ := C65_local_copies hu hm hlen h p a ha
    have hn : n ∈ a.nodeL2g := hn
    rw [e] at hn
    exact inX p a ha n hn
  · intro f hf i t v hi hv
    obtain ⟨p, a, ha, rfl⟩ := (mem_files _ data f).mp hf
    obtain ⟨_, _, e, _, hc, _⟩ := C65_local_copies hu hm hlen h p a ha
    obtain ⟨n0, n1, n2, x, y, z, e1, e2, e3, e4, e5⟩ := hc i t hi
    have hv : (a.tris.map asFn)[i]? = some v := hv
    rw [List.getElem?_map, e1] at hv
    cases hv
    refine ⟨asFn (x, y, z), by simp [whole, e2], ?_⟩
    intro k
    show a.nodeL2g[_]? = _
    rw [e]
    fin_cases k
    · exact e3
    · exact e4
    · exact e5
  · intro f hf
    obtain ⟨p, a, ha, rfl⟩ := (mem_files _ data f).mp hf
    obtain ⟨_, _, e, _⟩ := C65_local_copies hu hm hlen h p a ha
    refine ⟨by show (a.nodes.map _).length = a.nodeL2g.length; rw [e, List.length_map], ?_⟩
    intro i n hn
    have hn : a.nodeL2g[i]? = some n := hn
    rw [e] at hn
    exact coord p a ha X rfl i n hn
  · intro f hf
    obtain ⟨p, a, ha, rfl⟩ := (mem_files _ data f).mp hf
    obtain ⟨_, _, e, _⟩ := C65_local_copies hu hm hlen h p a ha
    refine ⟨by show (a.nodes.map _).length = a.nodeL2g.length; rw [e, List.length_map], ?_⟩
    intro i n hn
    have hn : a.nodeL2g[i]? = some n := hn
    rw [e] at hn
    exact coord p a ha Y hP.same i n hn
  · intro n hn
    obtain ⟨T, hT, hc⟩ := hP.used n hn
    obtain ⟨t, ht⟩ := List.mem_iff_getElem?.mp hT
    rcases hc with e | e | e
    · exact ⟨t, asFn T, 0, by simp [whole, ht], e.symm⟩
    · exact ⟨t, asFn T, 1, by simp [whole, ht], e.symm⟩
    · exact ⟨t, asFn T, 2, by simp [whole, ht], e.symm⟩

omit hu hm hlen h in
theorem flatMap_three {α β : Type*} (l : List α) (f : α → List β) (hf : ∀ a, (f a).length = 3) (i c : ℕ) (hc : c < 3) :
    (l.flatMap f)[3 * i + c]? = l[i]?.bind fun a => (f a)[c]? := by
  induction l generalizing i with
  | nil => simp
  | cons a l ih =>
    rw [List.flatMap_cons]
    cases i with
    | zero => rw [List.getElem?_append_left (by rw [hf]; omega)]; simp
    | succ i =>
      rw [List.getElem?_append_right (by rw [hf]; omega), hf, show 3 * (i + 1) + c - 3 = 3 * i + c by omega, ih]
      simp

theorem plain {X Y : List K} (hP : Points tris X Y) (start : K) (times : List K) (data : ℕ → Data K) :
    PlainFiles (whole tris X Y) (files (plainFile N tris.length X Y start times) parts data) := by
  have coord : ∀ (p : ℕ) (a : Local), parts[p]? = some a → ∀ Z : List K, Z.length = X.length →
      (a.tris.flatMap fun t => [Z.getD (a.nodes.getD t.1 0) 0, Z.getD (a.nodes.getD t.2.1 0) 0, Z.getD (a.nodes.getD t.2.2 0) 0]).length =
        3 * a.tris.length ∧
      ∀ (i t : ℕ) (T : Fin 3 → ℕ) (k : Fin 3), a.triL2g[i]? = some t → (whole tris X Y).tris[t]? = some T →
      (a.tris.flatMap fun t => [Z.getD (a.nodes.getD t.1 0) 0, Z.getD (a.nodes.getD t.2.1 0) 0,
        Z.getD (a.nodes.getD t.2.2 0) 0])[3 * i + (k : ℕ)]? = Z[T k]? := by
    intro p a ha Z hZ
    refine ⟨?_, ?_⟩
    · rw [List.length_flatMap]
      simp [mul_comm]
    intro i t T k hi hT
    obtain ⟨_, _, e, _, hc, _⟩ := C65_local_copies hu hm hlen h p a ha
    obtain ⟨n0, n1, n2, x, y, z, e1, e2, e3, e4, e5⟩ := hc i t hi
    have hr := hP.range _ (List.mem_of_getElem? e2)
    rw [flatMap_three _ _ (fun _ => rfl) i k k.isLt, e1, Option.bind_some]
    have hT' : T = asFn (x, y, z) := by
      simp [whole, e2] at hT
      exact hT.symm
    subst hT'
    simp only [List.getD_eq_getElem?_getD, e3, e4, e5, Option.getD_some]
    obtain ⟨r1, r2, r3⟩ := hr
    simp only at r1 r2 r3
    fin_cases k
    · simp [asFn, List.getElem?_eq_getElem (show x < Z.length by omega)]
    · simp [asFn, List.getElem?_eq_getElem (show y < Z.length by omega)]
    · simp [asFn, List.getElem?_eq_getElem (show z < Z.length by omega)]
  refine ⟨?_, ?_, ?_⟩
  · intro T hT k
    obtain ⟨U, hU, rfl⟩ := List.mem_map.mp hT
    have hr := hP.range U hU
    show asFn U k < X.length
    rcases asFn_corner U k with e | e | e <;> rw [e]
    · exact hr.1
    · exact hr.2.1
    · exact hr.2.2
  · intro f hf
    obtain ⟨p, a, ha, rfl⟩ := (mem_files _ data f).mp hf
    refine ⟨?_, (coord p a ha X rfl).2⟩
    refine (coord p a ha X rfl).1.trans ?_
    simp [plainFile]
  · intro f hf
    obtain ⟨p, a, ha, rfl⟩ := (mem_files _ data f).mp hf
    refine ⟨?_, (coord p a ha Y hP.same).2⟩
    refine (coord p a ha Y hP.same).1.trans ?_
    simp [plainFile]

end

end Verif.ParFile
