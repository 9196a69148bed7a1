import Verif.ParFile.Model
import Verif.Par.Props
import Verif.Sww.PropsMerge

/-! The files of a distributed mesh are the pieces of it. -/

set_option linter.unusedSectionVars false

namespace Verif.ParFile

open Verif.Par
open Verif.Mesh (Tri BDict MeshData buildMesh)
open Verif.Sww (Part Stored Whole Own Pieces SmoothFiles PlainFiles)

/-- Setting entries to zero one after the other. -/
theorem foldl_set_zero (l : List ℕ) (fl : List ℤ) (k : ℕ) :
    (l.foldl (fun fl i => fl.set i 0) fl)[k]? = if k ∈ l then fl[k]?.map fun _ => 0 else fl[k]? := by
  induction l generalizing fl with
  | nil => simp
  | cons i l ih =>
    simp only [List.foldl_cons, ih, List.getElem?_set, List.mem_cons]
    by_cases h : i = k
    · subst h
      by_cases hl : i < fl.length
      · simp [hl]
      · simp [hl]
    · have h' : ¬ k = i := fun e => h e.symm
      simp [h, h']

theorem foldl_lists (f : ℕ → List ℕ) (qs : List ℕ) (fl : List ℤ) (k : ℕ) :
    (qs.foldl (fun fl q => (f q).foldl (fun fl i => fl.set i 0) fl) fl)[k]? = if ∃ q ∈ qs, k ∈ f q then fl[k]?.map fun _ => 0 else fl[k]? := by
  induction qs generalizing fl with
  | nil => simp
  | cons q qs ih =>
    rw [List.foldl_cons, ih, foldl_set_zero]
    by_cases h1 : k ∈ f q <;> by_cases h2 : ∃ q ∈ qs, k ∈ f q
    · simp [h1, h2, Function.comp_def]
    · simp [h1, h2]
    · simp [h1, h2]
    · simp [h1, h2]

variable {N width : ℕ} {epart : List ℕ} {tris : List Tri} {user : BDict} {m : MeshData} {d : Division} {m' : MeshData}

/-- The flag of a local triangle is one exactly for own triangles. -/
theorem flag_eq (s : Setup N epart tris user m d m') (p k : ℕ) :
    (fullFlag N (localOf d m' (ghostsOf d m' width) p))[k]? =
      if k < (localOf d m' (ghostsOf d m' width) p).nFull then some 1
      else if k < (localOf d m' (ghostsOf d m' width) p).tris.length then some 0 else none := by
  have hN : d.tpp.length = N := (divide_ok s.hd).2.2.2.2.1
  have hlen : (localOf d m' (ghostsOf d m' width) p).tris.length = (ids d m' width p).length := by rw [s.local_tris, List.length_map]
  have hfull : (localOf d m' (ghostsOf d m' width) p).nFull = (fullIds (procSum d.tpp p) (procSum d.tpp (p + 1))).length := by
    rw [fullIds_length]; rfl
  have hle : (localOf d m' (ghostsOf d m' width) p).nFull ≤ (ids d m' width p).length := by
    rw [hfull]; unfold ids; rw [List.length_append]; omega
  have hnum := s.numbers width p
  have key : k < (ids d m' width p).length → ((∃ q ∈ List.range N, k ∈ ((localOf d m' (ghostsOf d m' width) p).ghostRecv q).map Prod.fst) ↔
      (localOf d m' (ghostsOf d m' width) p).nFull ≤ k) := by
    intro hk
    have hg := List.getElem?_eq_getElem hk
    constructor
    · rintro ⟨q, _, hq⟩
      rw [s.ghostRecv, List.map_map, List.mem_map] at hq
      obtain ⟨g, hgm, e⟩ := hq
      have hgh : g ∈ ghostsOf d m' width p := (List.mem_filter.mp hgm).1
      simp only [Function.comp] at e
      -- the place of a ghost
      obtain ⟨j, hj, hjg⟩ := List.getElem_of_mem hgh
      have hpos : (ids d m' width p)[(fullIds (procSum d.tpp p) (procSum d.tpp (p + 1))).length + j]? = some g := by
        unfold ids
        rw [List.getElem?_append_right (by omega)]
        simp [hj, hjg]
      have := hnum.at hpos
      rw [e] at this
      rw [hfull]
      omega
    · intro hk'
      rw [hfull] at hk'
      have hget : (ids d m' width p)[k]? = (ghostsOf d m' width p)[k - (fullIds (procSum d.tpp p) (procSum d.tpp (p + 1))).length]? := by
        unfold ids
        rw [List.getElem?_append_right hk']
      have hgm : (ids d m' width p)[k] ∈ ghostsOf d m' width p := by
        rw [hg] at hget
        exact List.mem_of_getElem? hget.symm
      refine ⟨owner epart (ids d m' width p)[k], ?_, ?_⟩
      · rw [List.mem_range, ← hN, (divide_ok s.hd).1]
        exact owner_lt_length epart _ (s.ghost_lt width p _ hgm)
      · rw [s.ghostRecv, List.map_map, List.mem_map]
        refine ⟨(ids d m' width p)[k], List.mem_filter.mpr ⟨hgm, by simp⟩, ?_⟩
        exact hnum.at hg
  unfold fullFlag
  rw [foldl_lists fun q => ((localOf d m' (ghostsOf d m' width) p).ghostRecv q).map Prod.fst]
  rw [hlen]
  by_cases hk : k < (ids d m' width p).length
  · rw [List.getElem?_replicate, if_pos hk]
    by_cases hf : k < (localOf d m' (ghostsOf d m' width) p).nFull
    · rw [if_neg (fun h => absurd ((key hk).mp h) (by omega)), if_pos hf]
    · rw [if_pos ((key hk).mpr (by omega)), if_neg hf, if_pos hk]
      rfl
  · rw [List.getElem?_replicate, if_neg hk]
    have hf : ¬ k < (localOf d m' (ghostsOf d m' width) p).nFull := by omega
    simp only [hf, hk, if_false, Option.map_none, ite_self]

end Verif.ParFile
