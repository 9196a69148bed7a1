import Verif.ParFile.Props
import Verif.ParRun.Props
import Verif.NodeAvg.Model

/-! C103: the merged result file of a run on several processors. -/

set_option linter.unusedSectionVars false

namespace Verif.ParFile

open Verif.Par
open Verif.Mesh (Tri BDict MeshData buildMesh)
open Verif.Sww (Part Stored heldNames mergeParallel Merged)
open Verif.ParRun (Idx Event Proc Setting run parEnv serialEnv localWorld handOut serialNo)
open Verif.Extrap (World)

variable {K : Type*} [Field K] [LinearOrder K] [IsStrictOrderedRing K]
variable {N width : ℕ} {epart : List ℕ} {tris : List Tri} {user : BDict} {m : MeshData} {parts : List Local}

/-- Values in triangles stored by one processor at the outputs `outs` of a run (times and values): `store_timestep` with `store_centroids`, `sww.py` 398-413. -/
def rowsOf (outs : List (K × (Idx parts → K))) (p : Fin parts.length) (j : Fin 3) : List (List K) :=
  outs.map fun o => (List.finRange (parts[p]).tris.length).map fun k => o.2 ⟨p, (k, j)⟩

def centroidsOf (outs : List (K × (Idx parts → K))) (p : Fin parts.length) (n : String) : Option (Stored K) :=
  if n = "stage" then some (.dynamic (rowsOf outs p 0))
  else if n = "xmomentum" then some (.dynamic (rowsOf outs p 1))
  else if n = "ymomentum" then some (.dynamic (rowsOf outs p 2))
  else none

/-- What the serial run stores. -/
def serialRows (n : ℕ) (outs : List (K × (Fin n × Fin 3 → K))) (j : Fin 3) : List (List K) :=
  outs.map fun o => (List.finRange n).map fun T => o.2 (T, j)

section

variable (hu : (user.map Prod.fst).Nodup) (hm : buildMesh tris user = .ok m) (hlen : epart.length = tris.length)
  (h : distribute N width epart tris m.boundary = .ok parts)

include hu hm hlen h

/-- **C103**: values in triangles alone. The arrays at nodes need only have their right shapes. -/
theorem C103_triangles [FloorRing K] {X Y : List K} (hP : Points tris X Y) (start : K) (times : List K) (data : ℕ → Data K)
    (kinds heldC : String → Held K)
    (hV : ∀ (p : ℕ) (a : Local), parts[p]? = some a → ∀ n, Piece times.length a.nodes.length (fun _ _ => False) (kinds n) ((data p).vars n))
    (hC : ∀ (p : ℕ) (a : Local), parts[p]? = some a → ∀ n, Piece times.length a.tris.length (OwnTri a) (heldC n) ((data p).varsC n))
    (a0 : Local) (ha0 : parts[0]? = some a0) (hfmt : a0.nodes.length ≠ 3 * a0.tris.length)
    (hclear : times.length ≠ a0.nodes.length ∧ times.length ≠ a0.tris.length) :
    ∃ r, mergeParallel (files (smoothFile N tris.length X Y start times) parts data) = some r ∧
      r.volumes = tris.map asFn ∧ r.x = X ∧ r.y = Y ∧ r.times = times ∧
      ∀ n ∈ heldNames, r.varsC.lookup n = (heldC n).whole times.length tris.length := by
  have hw := smooth_writes (N := N) tris.length X Y start times
  have hG := pieces hu hm hlen h hP hw data
  have hS := smooth hu hm hlen h hP start times data
  have U1 := uniform_of (write := smoothFile N tris.length X Y start times) Data.vars Part.vars (fun _ _ => rfl) (fun a => a.nodes.length)
    (fun p => p.nodeL2g.length) (fun p a ha d => by
      show a.nodeL2g.length = _
      rw [(C65_local_copies hu hm hlen h p a ha).2.2.1]) (fun _ _ _ => False) hV
  have U2 := uniform_of (write := smoothFile N tris.length X Y start times) Data.varsC Part.varsC (fun _ _ => rfl) (fun a => a.tris.length)
    (fun p => p.volumes.length) (fun p a ha d => by simp [smoothFile]) OwnTri hC
  obtain ⟨rest, hrest⟩ := files_cons hu hm hlen h (smoothFile N tris.length X Y start times) data a0 ha0
  have en : a0.nodeL2g = a0.nodes := (C65_local_copies hu hm hlen h 0 a0 ha0).2.2.1
  have ev : (smoothFile N tris.length X Y start times a0 (data 0)).volumes.length = a0.tris.length := by simp [smoothFile]
  have M2 := fun out => merged_of (write := smoothFile N tris.length X Y start times) (L := tris.length) Data.varsC Part.varsC (fun _ _ => rfl)
    (fun a => a.tris.length) OwnTri hC _ (fun val out f h1 h2 => tri_whole hu hm hlen h (X := X) (Y := Y) hw data val out f h1 h2) out
  rw [hrest] at hG hS U1 U2 M2 ⊢
  obtain ⟨r, r1, r2, r3, r4, r5, r6, r7⟩ := Sww.C87_smooth (whole tris X Y) _ rest hG hS
    (by rw [ev]; show _ ≠ a0.nodeL2g.length; rw [en]; exact fun e => hfmt e.symm) U1 U2
    ⟨by show _ ≠ a0.nodeL2g.length; rw [en]; exact hclear.1, by rw [ev]; exact hclear.2⟩
  exact ⟨r, r1, r2, r3, r4, r5, fun n hn => M2 _ r7 n hn⟩

variable [NeZero tris.length] {W : World tris.length K} {pr : ∀ p : Fin parts.length, Proc (parts[p]).tris.length K}

/-- All outputs of a run on several processors and of the serial run: both succeed, the times are equal and so are the values in own triangles. -/
theorem outputs (S : Setting tris user m parts W pr) (hw : 3 ≤ width) (t : K) (q : Fin tris.length × Fin 3 → K) (ess : List (List (Event K)))
    (he : ∀ es ∈ ess, ∀ mth choose, Event.step mth choose ∈ es → (mth = .rk2 → width < 4 ∨ 6 ≤ width) ∧ ∀ x, 0 ≤ x → 0 ≤ choose x) :
    ∃ outs souts, ess.mapM (fun es => run (parEnv (fun p => localWorld W parts[p] (pr p)) width) es t (handOut parts q)) = some outs ∧
      ess.mapM (fun es => run (serialEnv W width) es t q) = some souts ∧ outs.map Prod.fst = souts.map Prod.fst ∧
      ∀ (s : ℕ) o so, outs[s]? = some o → souts[s]? = some so → ∀ p (k : Fin (parts[p]).tris.length), k.1 < (parts[p]).nFull →
        ∀ j, o.2 ⟨p, (k, j)⟩ = so.2 (serialNo parts[p] k, j) := by
  induction ess with
  | nil => exact ⟨[], [], rfl, rfl, rfl, by simp⟩
  | cons es ess ih =>
    obtain ⟨outs, souts, h1, h2, h3, h4⟩ := ih (fun es' hes => he es' (List.mem_cons_of_mem _ hes))
    obtain ⟨t', q', Q', g1, g2, g3⟩ := ParRun.C69_parallel_equals_serial hu hm hlen h S hw es (he es (List.mem_cons_self ..)) t q
    refine ⟨(t', q') :: outs, (t', Q') :: souts, ?_, ?_, by simp [h3], ?_⟩
    · rw [List.mapM_cons, g1, h1]; rfl
    · rw [List.mapM_cons, g2, h2]; rfl
    · intro s o so ho hso
      cases s with
      | zero =>
        simp only [List.getElem?_cons_zero, Option.some.injEq] at ho hso
        subst ho hso
        exact g3
      | succ s =>
        rw [List.getElem?_cons_succ] at ho hso
        exact h4 s o so ho hso

/-- **C103**: a run on several processors with outputs after the events of `ess` (each the whole sequence from the start), whose centroid values are stored,
and whose files are merged. The merged file has the triangles and points of the serial mesh, the times of the serial run, and in each triangle the stage and
the momenta the serial run has at those times. -/
theorem C103_run [FloorRing K] {X Y : List K} (hP : Points tris X Y) (start : K) (S : Setting tris user m parts W pr) (hw : 3 ≤ width) (t : K)
    (q : Fin tris.length × Fin 3 → K) (ess : List (List (Event K)))
    (he : ∀ es ∈ ess, ∀ mth choose, Event.step mth choose ∈ es → (mth = .rk2 → width < 4 ∨ 6 ≤ width) ∧ ∀ x, 0 ≤ x → 0 ≤ choose x)
    (a0 : Local) (ha0 : parts[0]? = some a0) (hfmt : a0.nodes.length ≠ 3 * a0.tris.length)
    (hclear : ess.length ≠ a0.nodes.length ∧ ess.length ≠ a0.tris.length) :
    ∃ outs souts, ess.mapM (fun es => run (parEnv (fun p => localWorld W parts[p] (pr p)) width) es t (handOut parts q)) = some outs ∧
      ess.mapM (fun es => run (serialEnv W width) es t q) = some souts ∧
      ∀ (data : ℕ → Data K) (kinds : String → Held K), (∀ p : Fin parts.length, (data p).varsC = centroidsOf outs p) →
        (∀ (p : ℕ) (a : Local), parts[p]? = some a → ∀ n, Piece ess.length a.nodes.length (fun _ _ => False) (kinds n) ((data p).vars n)) →
        ∃ r, mergeParallel (files (smoothFile N tris.length X Y start (outs.map Prod.fst)) parts data) = some r ∧
          r.volumes = tris.map asFn ∧ r.x = X ∧ r.y = Y ∧ r.times = souts.map Prod.fst ∧
          r.varsC.lookup "stage" = some (.dynamic (serialRows tris.length souts 0)) ∧
          r.varsC.lookup "xmomentum" = some (.dynamic (serialRows tris.length souts 1)) ∧
          r.varsC.lookup "ymomentum" = some (.dynamic (serialRows tris.length souts 2)) := by
  obtain ⟨outs, souts, h1, h2, h3, h4⟩ := outputs hu hm hlen h S hw t q ess he
  refine ⟨outs, souts, h1, h2, ?_⟩
  intro data kinds hd hV
  have mapM_len : ∀ {α β : Type _} (f : α → Option β) (l : List α) (r : List β), l.mapM f = some r → r.length = l.length := by
    intro α β f l
    induction l with
    | nil => intro r hr; cases hr; rfl
    | cons a l ih =>
      intro r hr
      rw [List.mapM_cons] at hr
      cases hf : f a with
      | none => rw [hf] at hr; cases hr
      | some b =>
        rw [hf] at hr
        cases hl : l.mapM f with
        | none => rw [hl] at hr; cases hr
        | some bs => rw [hl] at hr; cases hr; simp [ih bs hl]
  have l1 : outs.length = ess.length := mapM_len _ _ _ h1
  have l2 : souts.length = ess.length := mapM_len _ _ _ h2
  have hn : 0 < tris.length := Nat.pos_of_ne_zero (NeZero.ne _)
  let f : Fin 3 → ℕ → ℕ → K := fun j s T => match souts[s]? with | some so => so.2 (Fin.ofNat tris.length T, j) | none => 0
  let held : String → Held K := fun n => if n = "stage" then .dynamic (f 0) else if n = "xmomentum" then .dynamic (f 1)
    else if n = "ymomentum" then .dynamic (f 2) else .absent
  have hrows : ∀ (p : Fin parts.length) (j : Fin 3), Piece ess.length (parts[p]).tris.length (OwnTri parts[p]) (.dynamic (f j))
      (some (.dynamic (rowsOf outs p j))) := by
    intro p j
    refine ⟨_, rfl, by simp [rowsOf, l1], ?_, ?_⟩
    · intro row hrow
      obtain ⟨o, _, rfl⟩ := List.mem_map.mp hrow
      simp
    · intro s row hs k T hkT
      unfold rowsOf at hs
      rw [List.getElem?_map] at hs
      cases ho : outs[s]? with
      | none => rw [ho] at hs; cases hs
      | some o =>
        rw [ho] at hs
        have := Option.some.inj hs
        subst this
        have hsl : s < souts.length := by
          rw [l2, ← l1]; exact (List.getElem?_eq_some_iff.mp ho).1
        have hk : k < (parts[p]).tris.length := by
          have := (C65_local_copies hu hm hlen h p _ (List.getElem?_eq_getElem p.2)).1
          have h5 := (List.getElem?_eq_some_iff.mp hkT.2).1
          simp only [Fin.getElem_fin] at *
          omega
        have e := h4 s o souts[s] ho (List.getElem?_eq_getElem hsl) p ⟨k, hk⟩ hkT.1 j
        rw [List.getElem?_map, show (List.finRange (parts[p]).tris.length)[k]? = some ⟨k, hk⟩ by
          rw [List.getElem?_eq_getElem (by simpa using hk), List.getElem_finRange]
          rfl]
        simp only [Option.map_some, Option.some.injEq]
        rw [e]
        show _ = match souts[s]? with | some so => so.2 (Fin.ofNat tris.length T, j) | none => 0
        rw [List.getElem?_eq_getElem hsl]
        simp only
        congr 2
        unfold serialNo
        rw [List.getD_eq_getElem?_getD, show (parts[p]).triL2g[k]? = some T from hkT.2]
        rfl
  have hC : ∀ (p : ℕ) (a : Local), parts[p]? = some a → ∀ n, Piece (outs.map Prod.fst).length a.tris.length (OwnTri a) (held n) ((data p).varsC n) := by
    intro p a ha n
    obtain ⟨hp, rfl⟩ := List.getElem?_eq_some_iff.mp ha
    rw [show (data p).varsC = _ from hd ⟨p, hp⟩, List.length_map, l1]
    unfold centroidsOf
    show Piece _ _ _ (if n = "stage" then .dynamic (f 0) else if n = "xmomentum" then .dynamic (f 1)
    else if n = "ymomentum" then .dynamic (f 2) else .absent) _
    split_ifs
    · exact hrows ⟨p, hp⟩ 0
    · exact hrows ⟨p, hp⟩ 1
    · exact hrows ⟨p, hp⟩ 2
    · rfl
  obtain ⟨r, r1, r2, r3, r4, r5, r6⟩ := C103_triangles hu hm hlen h hP start (outs.map Prod.fst) data kinds held
    (by rw [List.length_map, l1]; exact hV) hC a0 ha0 hfmt (by rw [List.length_map, l1]; exact hclear)
  have whole_rows : ∀ j, (Held.dynamic (f j)).whole (outs.map Prod.fst).length tris.length = some (.dynamic (serialRows tris.length souts j)) := by
    intro j
    show some (Stored.dynamic ((List.range (outs.map Prod.fst).length).map fun s => (List.range tris.length).map (f j s))) = _
    congr 2
    unfold serialRows
    apply List.ext_getElem (by simp [l1, l2])
    intro s hs1 hs2
    have hsl : s < souts.length := by simpa using hs2
    rw [List.getElem_map, List.getElem_map, List.getElem_range]
    apply List.ext_getElem (by simp)
    intro T hT1 hT2
    rw [List.getElem_map, List.getElem_map, List.getElem_range, List.getElem_finRange]
    show (match souts[s]? with | some so => so.2 (Fin.ofNat tris.length T, j) | none => 0) = _
    rw [List.getElem?_eq_getElem hsl]
    refine congrArg (fun T => souts[s].2 (T, j)) (Fin.ext ?_)
    simp only [Fin.val_ofNat, Fin.val_cast]
    exact Nat.mod_eq_of_lt (by simpa using hT1)
  refine ⟨r, r1, r2, r3, r4, by rw [r5, h3], ?_, ?_, ?_⟩
  · rw [r6 "stage" (by simp [heldNames])]; exact whole_rows 0
  · rw [r6 "xmomentum" (by simp [heldNames])]; exact whole_rows 1
  · rw [r6 "ymomentum" (by simp [heldNames])]; exact whole_rows 2

end

end Verif.ParFile
