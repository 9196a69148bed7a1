import Verif.ParFile.LemmasTwo
import Mathlib.Data.List.Nodup
import Mathlib.Data.List.Dedup

/-! C103: distributing a mesh, storing one file on each processor and merging the files gives the file of the serial run. -/

set_option linter.unusedSectionVars false

namespace Verif.ParFile

open Verif.Par
open Verif.Mesh (Tri BDict MeshData buildMesh)
open Verif.Sww (Part Stored Whole Own Touch Pieces SmoothFiles PlainFiles Uniform VarsRight TriRight NodeRight CornerRight heldNames mergeParallel Merged)

variable {K : Type*} [Field K] [LinearOrder K] [IsStrictOrderedRing K]
variable {N width : ℕ} {epart : List ℕ} {tris : List Tri} {user : BDict} {m : MeshData} {parts : List Local}

/-- Pieces of one field make arrays of equal kind and right lengths in all files. -/
theorem uniform_of {write : Local → Data K → Part K} {data : ℕ → Data K} {nsteps : ℕ} {held : String → Held K}
    (sel : Data K → String → Option (Stored K)) (selF : Part K → String → Option (Stored K)) (hsel : ∀ a d, selF (write a d) = sel d)
    (len : Local → ℕ) (lenF : Part K → ℕ) (hlenF : ∀ (p : ℕ) (a : Local), parts[p]? = some a → ∀ d, lenF (write a d) = len a) (at_ : Local → ℕ → ℕ → Prop)
    (hold : ∀ (p : ℕ) (a : Local), parts[p]? = some a → ∀ n, Piece nsteps (len a) (at_ a) (held n) (sel (data p) n)) :
    Uniform selF lenF nsteps (files write parts data) := by
  intro n
  cases hh : held n with
  | absent =>
    left
    intro f hf
    obtain ⟨p, a, ha, rfl⟩ := (mem_files write data f).mp hf
    have := hold p a ha n
    rw [hh] at this
    rw [hsel]; exact this
  | static g =>
    right; left
    refine ⟨fun f => match selF f n with | some (.static v) => v | _ => [], ?_⟩
    intro f hf
    obtain ⟨p, a, ha, rfl⟩ := (mem_files write data f).mp hf
    have := hold p a ha n
    rw [hh] at this
    obtain ⟨v, h1, h2, _⟩ := this
    simp only [hsel, h1, hlenF p a ha]
    exact ⟨trivial, h2⟩
  | dynamic g =>
    right; right
    refine ⟨fun f => match selF f n with | some (.dynamic v) => v | _ => [], ?_⟩
    intro f hf
    obtain ⟨p, a, ha, rfl⟩ := (mem_files write data f).mp hf
    have := hold p a ha n
    rw [hh] at this
    obtain ⟨v, h1, h2, h3, _⟩ := this
    simp only [hsel, h1, hlenF p a ha]
    exact ⟨trivial, h2, h3⟩

/-- Rightly merged pieces of one field are the field. -/
theorem merged_of {write : Local → Data K → Part K} {data : ℕ → Data K} {nsteps L : ℕ} {held : String → Held K}
    (sel : Data K → String → Option (Stored K)) (selF : Part K → String → Option (Stored K)) (hsel : ∀ a d, selF (write a d) = sel d)
    (len : Local → ℕ) (at_ : Local → ℕ → ℕ → Prop)
    (hold : ∀ (p : ℕ) (a : Local), parts[p]? = some a → ∀ n, Piece nsteps (len a) (at_ a) (held n) (sel (data p) n))
    (Right : (Part K → List K) → List K → Prop)
    (hR : ∀ (val : Part K → List K) (out : List K) (f : ℕ → K), Right val out →
      (∀ (p : ℕ) (a : Local), parts[p]? = some a → ∀ k i, at_ a k i → (val (write a (data p)))[k]? = some (f i)) → out = (List.range L).map f)
    (out : List (String × Stored K)) (hV : VarsRight Right selF nsteps (files write parts data) out) (n : String) (hn : n ∈ heldNames) :
    out.lookup n = (held n).whole nsteps L := by
  cases hh : held n with
  | absent =>
    refine hV.absent n ?_
    intro f hf
    obtain ⟨p, a, ha, rfl⟩ := (mem_files write data f).mp hf
    have := hold p a ha n
    rw [hh] at this
    rw [hsel]; exact this
  | static g =>
    obtain ⟨v, h1, h2⟩ := hV.static n hn (fun f => match selF f n with | some (.static v) => v | _ => []) (by
      intro f hf
      obtain ⟨p, a, ha, rfl⟩ := (mem_files write data f).mp hf
      have := hold p a ha n
      rw [hh] at this
      obtain ⟨v, h1, h2, _⟩ := this
      rw [hsel, h1])
    rw [h1, hR _ _ g h2]
    · rfl
    · intro p a ha k i hki
      have := hold p a ha n
      rw [hh] at this
      obtain ⟨w, e1, _, e3⟩ := this
      simp only [hsel, e1]
      exact e3 k i hki
  | dynamic g =>
    obtain ⟨rows, h1, h2, h3⟩ := hV.dynamic n hn (fun f => match selF f n with | some (.dynamic v) => v | _ => []) (by
      intro f hf
      obtain ⟨p, a, ha, rfl⟩ := (mem_files write data f).mp hf
      have := hold p a ha n
      rw [hh] at this
      obtain ⟨v, h1, h2, _⟩ := this
      rw [hsel, h1])
    rw [h1]
    have : rows = (List.range nsteps).map fun s => (List.range L).map (g s) := by
      apply List.ext_getElem (by simp [h2])
      intro s hs _
      obtain ⟨row, h4, h5⟩ := h3 s (by omega)
      rw [List.getElem?_eq_getElem hs] at h4
      rw [Option.some.inj h4, List.getElem_map, List.getElem_range]
      refine hR _ _ (g s) h5 ?_
      intro p a ha k i hki
      have := hold p a ha n
      rw [hh] at this
      obtain ⟨w, e1, e2, _, e4⟩ := this
      simp only [hsel, e1]
      rw [List.getD_eq_getElem?_getD, List.getElem?_eq_getElem (show s < w.length by omega)]
      exact e4 s _ (List.getElem?_eq_getElem (by omega)) k i hki
    rw [this]
    rfl

section

variable (hu : (user.map Prod.fst).Nodup) (hm : buildMesh tris user = .ok m) (hlen : epart.length = tris.length)
  (h : distribute N width epart tris m.boundary = .ok parts)

include hu hm hlen h

theorem tri_whole {X Y : List K} {write : Local → Data K → Part K} (hw : Writes N tris.length X.length write) (data : ℕ → Data K)
    (val : Part K → List K) (out : List K) (f : ℕ → K) (hr : TriRight (whole tris X Y) (files write parts data) val out)
    (hv : ∀ (p : ℕ) (a : Local), parts[p]? = some a → ∀ k t, OwnTri a k t → (val (write a (data p)))[k]? = some (f t)) :
    out = (List.range tris.length).map f := by
  obtain ⟨h1, h2⟩ := hr
  have wl : (whole tris X Y).tris.length = tris.length := by simp [whole]
  apply List.ext_getElem? 
  intro t
  by_cases ht : t < tris.length
  · obtain ⟨x, ⟨a, e1, e2, e3⟩, _⟩ := (C65_every_triangle_owned_once hu hm hlen h t ht).1
    rw [h2 _ ((mem_files write data _).mpr ⟨x.1, a, e1, rfl⟩) x.2 t ((own_part hu hm hlen h hw x.1 a e1 _ _ _).mpr ⟨e2, e3⟩),
      hv x.1 a e1 x.2 t ⟨e2, e3⟩]
    simp [ht]
  · rw [List.getElem?_eq_none (by omega), List.getElem?_eq_none (by simpa using ht)]

theorem corner_whole {X Y : List K} {write : Local → Data K → Part K} (hw : Writes N tris.length X.length write) (data : ℕ → Data K)
    (val : Part K → List K) (out : List K) (f : ℕ → K) (hr : CornerRight (whole tris X Y) (files write parts data) val out)
    (hv : ∀ (p : ℕ) (a : Local), parts[p]? = some a → ∀ k t, OwnCorner a k t → (val (write a (data p)))[k]? = some (f t)) :
    out = (List.range (3 * tris.length)).map f := by
  obtain ⟨h1, h2⟩ := hr
  have wl : (whole tris X Y).tris.length = tris.length := by simp [whole]
  apply List.ext_getElem?
  intro j
  by_cases hj : j < 3 * tris.length
  · have ht : j / 3 < tris.length := by omega
    have hc : j % 3 < 3 := Nat.mod_lt _ (by norm_num)
    obtain ⟨x, ⟨a, e1, e2, e3⟩, _⟩ := (C65_every_triangle_owned_once hu hm hlen h (j / 3) ht).1
    have := h2 _ ((mem_files write data _).mpr ⟨x.1, a, e1, rfl⟩) x.2 (j / 3) ⟨j % 3, hc⟩
      ((own_part hu hm hlen h hw x.1 a e1 _ _ _).mpr ⟨e2, e3⟩)
    simp only at this
    rw [Nat.div_add_mod] at this
    rw [this, hv x.1 a e1 _ j ⟨x.2, j / 3, j % 3, hc, ⟨e2, e3⟩, rfl, (Nat.div_add_mod j 3).symm⟩]
    simp [hj]
  · rw [List.getElem?_eq_none (by omega), List.getElem?_eq_none (by simpa using hj)]

theorem node_whole {X Y : List K} (start : K) (times : List K) (data : ℕ → Data K)
    (val : Part K → List K) (out : List K) (f : ℕ → K)
    (hr : NodeRight (whole tris X Y) (files (smoothFile N tris.length X Y start times) parts data) val out)
    (hv : ∀ (p : ℕ) (a : Local), parts[p]? = some a → ∀ k t, OwnNode a k t →
      (val (smoothFile N tris.length X Y start times a (data p)))[k]? = some (f t)) :
    out = (List.range X.length).map f := by
  obtain ⟨h1, h2⟩ := hr
  have wl : (whole tris X Y).X.length = X.length := rfl
  apply List.ext_getElem?
  intro n
  by_cases hn : n < X.length
  · obtain ⟨A, q, B, e1, e2, _, i, e3, e4⟩ := h2 n hn
    have hq : q ∈ files (smoothFile N tris.length X Y start times) parts data := by rw [e1]; simp
    obtain ⟨p, a, ha, rfl⟩ := (mem_files _ data q).mp hq
    obtain ⟨k, v, c, o1, o2, o3⟩ := e2
    obtain ⟨_, _, e, hnd, _, _⟩ := C65_local_copies hu hm hlen h p a ha
    have e3' : a.nodes[i]? = some n := by rw [← e]; exact e3
    have o3' : a.nodes[v c]? = some n := by rw [← e]; exact o3
    have hvi : v c = i := by
      obtain ⟨l1, g1⟩ := List.getElem?_eq_some_iff.mp o3'
      obtain ⟨l2, g2⟩ := List.getElem?_eq_some_iff.mp e3'
      exact (hnd.getElem_inj_iff).mp (g1.trans g2.symm)
    have o1' : (fullFlag N a)[k]? = some 1 := o1
    rw [flag_one hu hm hlen h p a ha] at o1'
    have o2' : (a.tris.map asFn)[k]? = some v := o2
    rw [List.getElem?_map] at o2'
    cases hT : a.tris[k]? with
    | none => rw [hT] at o2'; cases o2'
    | some T =>
      rw [hT] at o2'
      have : asFn T = v := Option.some.inj o2'
      rw [e4, hv p a ha i n ⟨e3', k, o1', T, hT, by
        have := asFn_corner T c
        rw [‹asFn T = v›, hvi] at this
        exact this⟩]
      simp [hn]
  · rw [List.getElem?_eq_none (by omega), List.getElem?_eq_none (by simpa using hn)]

theorem files_cons (write : Local → Data K → Part K) (data : ℕ → Data K) (a : Local) (ha : parts[0]? = some a) :
    ∃ rest, files write parts data = write a (data 0) :: rest := by
  cases parts with
  | nil => simp at ha
  | cons b ps =>
    simp only [List.getElem?_cons_zero, Option.some.injEq] at ha
    subst ha
    exact ⟨_, by unfold files; rw [List.zipIdx_cons, List.map_cons]⟩

/-- A processor with two different triangles of its own that share a node keeps fewer nodes than three for each triangle, so its file is not taken for one of the
other format. -/
theorem C103_format (p : ℕ) (a : Local) (ha : parts[p]? = some a) (t u n : ℕ) (htu : t ≠ u) (k l : ℕ) (hk : a.triL2g[k]? = some t)
    (hl : a.triL2g[l]? = some u) (T U : Tri) (hT : tris[t]? = some T) (hU : tris[u]? = some U)
    (h1 : n = T.1 ∨ n = T.2.1 ∨ n = T.2.2) (h2 : n = U.1 ∨ n = U.2.1 ∨ n = U.2.2) : a.nodes.length < 3 * a.tris.length := by
  obtain ⟨_, _, _, hnd, hc, hus⟩ := C65_local_copies hu hm hlen h p a ha
  have hkl : k ≠ l := by rintro rfl; rw [hk] at hl; exact htu (Option.some.inj hl)
  -- corners of all local triangles
  let cs := a.tris.flatMap fun T : Tri => [T.1, T.2.1, T.2.2]
  have hlen3 : cs.length = 3 * a.tris.length := by
    show (a.tris.flatMap _).length = _
    rw [List.length_flatMap]; simp [mul_comm]
  -- the shared node as a local corner of both
  have corner : ∀ (k t : ℕ) (T : Tri), a.triL2g[k]? = some t → tris[t]? = some T → (n = T.1 ∨ n = T.2.1 ∨ n = T.2.2) →
      ∃ c < 3, ∃ i, cs[3 * k + c]? = some i ∧ a.nodes[i]? = some n := by
    intro k t T hk hT hn
    obtain ⟨n0, n1, n2, x, y, z, e1, e2, e3, e4, e5⟩ := hc k t hk
    rw [hT] at e2
    cases e2
    have g : ∀ c < 3, cs[3 * k + c]? = [n0, n1, n2][c]? := by
      intro c hc
      show (a.tris.flatMap _)[_]? = _
      rw [flatMap_three _ _ (fun _ => rfl) k c hc, e1]; rfl
    rcases hn with rfl | rfl | rfl
    · exact ⟨0, by norm_num, n0, g 0 (by norm_num), e3⟩
    · exact ⟨1, by norm_num, n1, g 1 (by norm_num), e4⟩
    · exact ⟨2, by norm_num, n2, g 2 (by norm_num), e5⟩
  obtain ⟨c1, hc1, i1, g1, q1⟩ := corner k t T hk hT h1
  obtain ⟨c2, hc2, i2, g2, q2⟩ := corner l u U hl hU h2
  have hi : i1 = i2 := by
    obtain ⟨l1, w1⟩ := List.getElem?_eq_some_iff.mp q1
    obtain ⟨l2, w2⟩ := List.getElem?_eq_some_iff.mp q2
    exact (hnd.getElem_inj_iff).mp (w1.trans w2.symm)
  have hnotnd : ¬ cs.Nodup := by
    intro hcs
    obtain ⟨l1, w1⟩ := List.getElem?_eq_some_iff.mp g1
    obtain ⟨l2, w2⟩ := List.getElem?_eq_some_iff.mp g2
    have := (hcs.getElem_inj_iff).mp (w1.trans (hi.trans w2.symm))
    omega
  have hsub : List.range a.nodes.length ⊆ cs.dedup := by
    intro i hi
    rw [List.mem_range] at hi
    obtain ⟨T, hT, hiT⟩ := hus i hi
    rw [List.mem_dedup]
    show i ∈ a.tris.flatMap _
    rw [List.mem_flatMap]
    exact ⟨T, hT, by simpa using hiT⟩
  have hle := (List.nodup_range.subperm hsub).length_le
  rw [List.length_range] at hle
  have hlt : cs.dedup.length < cs.length := by
    refine lt_of_le_of_ne (List.dedup_sublist cs).length_le ?_
    intro e
    exact hnotnd ((List.dedup_sublist cs).eq_of_length e ▸ List.nodup_dedup cs)
  omega

/-- **C103**, smooth format: the mesh is distributed, each processor stores its local mesh and what it holds, and the files are merged. If what each
processor holds at its own triangles and at the nodes of its own triangles is the serial field there (whatever it holds at its ghosts), the merged
file is the file of the serial run: the same triangles in the same order, the same points, the same times and the same arrays. -/
theorem C103_smooth [FloorRing K] {X Y : List K} (hP : Points tris X Y) (start : K) (times : List K) (data : ℕ → Data K) (heldV heldC : String → Held K)
    (hV : ∀ (p : ℕ) (a : Local), parts[p]? = some a → ∀ n, Piece times.length a.nodes.length (OwnNode a) (heldV n) ((data p).vars n))
    (hC : ∀ (p : ℕ) (a : Local), parts[p]? = some a → ∀ n, Piece times.length a.tris.length (OwnTri a) (heldC n) ((data p).varsC n))
    (a0 : Local) (ha0 : parts[0]? = some a0) (hfmt : a0.nodes.length ≠ 3 * a0.tris.length)
    (hclear : times.length ≠ a0.nodes.length ∧ times.length ≠ a0.tris.length) :
    ∃ r, mergeParallel (files (smoothFile N tris.length X Y start times) parts data) = some r ∧
      r.volumes = tris.map asFn ∧ r.x = X ∧ r.y = Y ∧ r.times = times ∧
      ∀ n ∈ heldNames, r.vars.lookup n = (heldV n).whole times.length X.length ∧ r.varsC.lookup n = (heldC n).whole times.length tris.length := by
  have hw := smooth_writes (N := N) tris.length X Y start times
  have hG := pieces hu hm hlen h hP hw data
  have hS := smooth hu hm hlen h hP start times data
  have U1 := uniform_of (write := smoothFile N tris.length X Y start times) Data.vars Part.vars (fun _ _ => rfl) (fun a => a.nodes.length)
    (fun p => p.nodeL2g.length) (fun p a ha d => by
      show a.nodeL2g.length = _
      rw [(C65_local_copies hu hm hlen h p a ha).2.2.1]) OwnNode hV
  have U2 := uniform_of (write := smoothFile N tris.length X Y start times) Data.varsC Part.varsC (fun _ _ => rfl) (fun a => a.tris.length)
    (fun p => p.volumes.length) (fun p a ha d => by simp [smoothFile]) OwnTri hC
  obtain ⟨rest, hrest⟩ := files_cons hu hm hlen h (smoothFile N tris.length X Y start times) data a0 ha0
  have en : a0.nodeL2g = a0.nodes := (C65_local_copies hu hm hlen h 0 a0 ha0).2.2.1
  have ev : (smoothFile N tris.length X Y start times a0 (data 0)).volumes.length = a0.tris.length := by simp [smoothFile]
  have M1 := fun out => merged_of (write := smoothFile N tris.length X Y start times) (L := X.length) Data.vars Part.vars (fun _ _ => rfl)
    (fun a => a.nodes.length) OwnNode hV _ (fun val out f h1 h2 => node_whole hu hm hlen h (Y := Y) start times data val out f h1 h2) out
  have M2 := fun out => merged_of (write := smoothFile N tris.length X Y start times) (L := tris.length) Data.varsC Part.varsC (fun _ _ => rfl)
    (fun a => a.tris.length) OwnTri hC _ (fun val out f h1 h2 => tri_whole hu hm hlen h (X := X) (Y := Y) hw data val out f h1 h2) out
  rw [hrest] at hG hS U1 U2 M1 M2 ⊢
  obtain ⟨r, r1, r2, r3, r4, r5, r6, r7⟩ := Sww.C87_smooth (whole tris X Y) _ rest hG hS
    (by rw [ev]; show _ ≠ a0.nodeL2g.length; rw [en]; exact fun e => hfmt e.symm) U1 U2
    ⟨by show _ ≠ a0.nodeL2g.length; rw [en]; exact hclear.1, by rw [ev]; exact hclear.2⟩
  exact ⟨r, r1, r2, r3, r4, r5, fun n hn => ⟨M1 _ r6 n hn, M2 _ r7 n hn⟩⟩

/-- **C103**, other format: three points for each triangle. Triangle `t` of the merged file has the points `3t`, `3t+1`, `3t+2`, which are the corners
of triangle `t` of the serial mesh, and the arrays are those of the serial run. -/
theorem C103_plain [FloorRing K] {X Y : List K} (hP : Points tris X Y) (start : K) (times : List K) (data : ℕ → Data K) (heldV heldC : String → Held K)
    (hV : ∀ (p : ℕ) (a : Local), parts[p]? = some a → ∀ n, Piece times.length (3 * a.tris.length) (OwnCorner a) (heldV n) ((data p).vars n))
    (hC : ∀ (p : ℕ) (a : Local), parts[p]? = some a → ∀ n, Piece times.length a.tris.length (OwnTri a) (heldC n) ((data p).varsC n))
    (a0 : Local) (ha0 : parts[0]? = some a0)
    (hclear : times.length ≠ 3 * a0.tris.length ∧ times.length ≠ a0.tris.length) :
    ∃ r, mergeParallel (files (plainFile N tris.length X Y start times) parts data) = some r ∧
      r.times = times ∧ r.volumes.length = tris.length ∧ r.x.length = 3 * tris.length ∧ r.y.length = 3 * tris.length ∧
      (∀ (t : ℕ) (T : Tri), tris[t]? = some T → ∃ v, r.volumes[t]? = some v ∧
        ∀ k : Fin 3, v k = 3 * t + k ∧ r.x[v k]? = X[asFn T k]? ∧ r.y[v k]? = Y[asFn T k]?) ∧
      ∀ n ∈ heldNames, r.vars.lookup n = (heldV n).whole times.length (3 * tris.length) ∧
        r.varsC.lookup n = (heldC n).whole times.length tris.length := by
  have hw := plain_writes (N := N) tris.length X Y start times
  have hG := pieces hu hm hlen h hP hw data
  have hS := plain hu hm hlen h hP start times data
  have U1 := uniform_of (write := plainFile N tris.length X Y start times) Data.vars Part.vars (fun _ _ => rfl) (fun a => 3 * a.tris.length)
    (fun p => 3 * p.volumes.length) (fun p a ha d => by simp [plainFile]) OwnCorner hV
  have U2 := uniform_of (write := plainFile N tris.length X Y start times) Data.varsC Part.varsC (fun _ _ => rfl) (fun a => a.tris.length)
    (fun p => p.volumes.length) (fun p a ha d => by simp [plainFile]) OwnTri hC
  obtain ⟨rest, hrest⟩ := files_cons hu hm hlen h (plainFile N tris.length X Y start times) data a0 ha0
  have ev : (plainFile N tris.length X Y start times a0 (data 0)).volumes.length = a0.tris.length := by simp [plainFile]
  have M1 := fun out => merged_of (write := plainFile N tris.length X Y start times) (L := 3 * tris.length) Data.vars Part.vars (fun _ _ => rfl)
    (fun a => 3 * a.tris.length) OwnCorner hV _ (fun val out f h1 h2 => corner_whole hu hm hlen h (X := X) (Y := Y) hw data val out f h1 h2) out
  have M2 := fun out => merged_of (write := plainFile N tris.length X Y start times) (L := tris.length) Data.varsC Part.varsC (fun _ _ => rfl)
    (fun a => a.tris.length) OwnTri hC _ (fun val out f h1 h2 => tri_whole hu hm hlen h (X := X) (Y := Y) hw data val out f h1 h2) out
  rw [hrest] at hG hS U1 U2 M1 M2 ⊢
  obtain ⟨r, r1, r2, r3, r4, r5, r6, r7, r8⟩ := Sww.C87_plain (whole tris X Y) _ rest hG hS U1 U2
    ⟨by rw [ev]; exact hclear.1, by rw [ev]; exact hclear.2⟩
  refine ⟨r, r1, r2, by rw [r3]; simp [whole], by rw [r4]; simp [whole], by rw [r5]; simp [whole], ?_,
    fun n hn => ⟨M1 _ r7 n hn, M2 _ r8 n hn⟩⟩
  intro t T hT
  exact r6 t (asFn T) (by simp [whole, hT])

end

end Verif.ParFile
