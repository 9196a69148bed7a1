import Verif.ParFile.Model
import Mathlib.Tactic.FinCases

/-! # C103: the file of one processor by itself -/

set_option linter.unusedSectionVars false

namespace Verif.ParFile

open Verif.Par (Local)
open Verif.Mesh (Tri)

variable {K : Type*} [Field K] [LinearOrder K]

private theorem flatMap_part {α β : Type*} (f : α → List β) (hf : ∀ a, (f a).length = 3) (l : List α) (i c : ℕ) (hc : c < 3) :
    (l.flatMap f)[3 * i + c]? = l[i]?.bind fun a => (f a)[c]? := by
  induction l generalizing i with
  | nil => simp
  | cons a l ih =>
    rw [List.flatMap_cons]
    cases i with
    | zero =>
      rw [List.getElem?_append_left (by rw [hf]; omega)]
      simp
    | succ i =>
      rw [List.getElem?_append_right (by rw [hf]; omega), hf, show 3 * (i + 1) + c - 3 = 3 * i + c by omega, ih]
      simp

/-- **C103.** The file of one processor describes its part of the mesh, in both formats: corner `c` of its triangle `i` is where the node of the
whole mesh lies which this corner stands for. In the second format no two triangles share a point. -/
theorem C103_part (nProcs nTri : ℕ) (X Y : List K) (start : K) (times : List K) (a : Local) (d : Data K)
    (hn : ∀ T ∈ a.tris, T.1 < a.nodes.length ∧ T.2.1 < a.nodes.length ∧ T.2.2 < a.nodes.length) (i : ℕ) (T : Tri) (hT : a.tris[i]? = some T) :
    (∃ v, (smoothFile nProcs nTri X Y start times a d).volumes[i]? = some v ∧ ∀ c,
      (smoothFile nProcs nTri X Y start times a d).x[v c]? = some (X.getD (a.nodes.getD (![T.1, T.2.1, T.2.2] c) 0) 0) ∧
      (smoothFile nProcs nTri X Y start times a d).y[v c]? = some (Y.getD (a.nodes.getD (![T.1, T.2.1, T.2.2] c) 0) 0)) ∧
    (∃ v, (plainFile nProcs nTri X Y start times a d).volumes[i]? = some v ∧ ∀ c,
      (plainFile nProcs nTri X Y start times a d).x[v c]? = some (X.getD (a.nodes.getD (![T.1, T.2.1, T.2.2] c) 0) 0) ∧
      (plainFile nProcs nTri X Y start times a d).y[v c]? = some (Y.getD (a.nodes.getD (![T.1, T.2.1, T.2.2] c) 0) 0)) ∧
    ∀ j v w, (plainFile nProcs nTri X Y start times a d).volumes[i]? = some v → (plainFile nProcs nTri X Y start times a d).volumes[j]? = some w →
      ∀ c e, v c = w e → i = j ∧ c = e := by
  have hi : i < a.tris.length := (List.getElem?_eq_some_iff.1 hT).1
  have hv : ∀ j v, (plainFile nProcs nTri X Y start times a d).volumes[j]? = some v → v = ![3 * j, 3 * j + 1, 3 * j + 2] := by
    intro j v h
    unfold plainFile at h
    simp only [List.getElem?_map] at h
    by_cases hj : j < a.tris.length
    · rw [List.getElem?_range hj] at h
      exact (Option.some.inj h).symm
    · rw [List.getElem?_eq_none (by simpa using hj)] at h
      cases h
  refine ⟨⟨asFn T, by unfold smoothFile; simp [hT], ?_⟩, ⟨![3 * i, 3 * i + 1, 3 * i + 2], ?_, ?_⟩, ?_⟩
  · have h := hn T (List.mem_of_getElem? hT)
    intro c
    have hc : asFn T c < a.nodes.length := by
      unfold asFn
      fin_cases c
      · exact h.1
      · exact h.2.1
      · exact h.2.2
    have e : ![T.1, T.2.1, T.2.2] c = asFn T c := rfl
    rw [e]
    unfold smoothFile
    simp [List.getElem?_map, List.getElem?_eq_getElem hc, List.getD_eq_getElem?_getD]
  · unfold plainFile
    simp [List.getElem?_range hi]
  · intro c
    unfold plainFile
    have F := fun (Z : List K) (c : ℕ) (hc : c < 3) => flatMap_part (fun t : Tri => [Z.getD (a.nodes.getD t.1 0) 0, Z.getD (a.nodes.getD t.2.1 0) 0,
      Z.getD (a.nodes.getD t.2.2 0) 0]) (fun _ => rfl) a.tris i c hc
    fin_cases c
    · have h1 := F X 0 (by omega)
      have h2 := F Y 0 (by omega)
      rw [hT] at h1 h2
      exact ⟨h1, h2⟩
    · have h1 := F X 1 (by omega)
      have h2 := F Y 1 (by omega)
      rw [hT] at h1 h2
      exact ⟨h1, h2⟩
    · have h1 := F X 2 (by omega)
      have h2 := F Y 2 (by omega)
      rw [hT] at h1 h2
      exact ⟨h1, h2⟩
  · intro j v w h1 h2 c e hce
    rw [hv i v h1, hv j w h2] at hce
    fin_cases c <;> fin_cases e <;> simp at hce ⊢ <;> omega

end Verif.ParFile
