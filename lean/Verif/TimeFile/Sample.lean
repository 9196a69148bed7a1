import Verif.TimeFile.Props

/-! # Samples -/

namespace Verif.TimeFile

open Verif.FileFn Verif.Interp

/-- Fields are lists of words, and a word is a number or not one. -/
def smR : Reader (List (Option ℚ)) ℚ := ⟨fun f => f.head?.join, fun f => f.map fun w => [w], fun f => f.head?.join⟩

/-- Three lines with two values each. -/
def smLines : List (List (List (Option ℚ))) := [[[some 10], [some 1, some 5]], [[some 20], [some 3, some 4]], [[some 25], [some 0, some 7]]]

def smC : List (ℚ × List ℚ) := [(10, [1, 5]), (20, [3, 4]), (25, [0, 7])]

theorem sm_text : Text smR ["stage"] smLines smC 2 where
  said := by decide +kernel
  two := ⟨_, rfl, by decide⟩
  number := ⟨_, rfl, by decide⟩
  most := by decide
  order := by rw [strictly_pairwise]; decide +kernel
  names := by decide +kernel

theorem sm_file : ∃ f, convert smR ["stage"] smLines = some f := (C115_taken _ _ _).mpr ⟨_, _, sm_text⟩

example : ∃ f : File ℚ, f.starttime = 10 ∧ f.time = some [0, 10, 15] ∧ f.vars "stage" = some (.one [1, 3, 0]) ∧
    f.vars "Attribute1" = some (.one [5, 4, 7]) ∧ convert smR ["stage"] smLines = some f := by
  obtain ⟨f, hf⟩ := sm_file
  obtain ⟨c, d, e, hT, he, rfl⟩ := (convert_iff _ _ _ _).mp hf
  have e1 := hT.said
  rw [sm_text.said] at e1
  cases e1
  cases he
  obtain ⟨x, hx, hd⟩ := hT.number
  cases hx
  have hd : (2 : ℕ) = d := hd
  subst hd
  have k0 : (List.find? (fun i => decide (nameOf ["stage"] i = "stage")) (List.range 2)) = some 0 := by decide +kernel
  have k1 : (List.find? (fun i => decide (nameOf ["stage"] i = "Attribute1")) (List.range 2)) = some 1 := by decide +kernel
  refine ⟨_, rfl, ?_, ?_, ?_, hf⟩
  · show some _ = some _
    congr 1
    decide +kernel
  · simp only [fileOf]
    rw [k0]
    show some (Var.one _) = some (Var.one _)
    congr 2
  · simp only [fileOf]
    rw [k1]
    show some (Var.one _) = some (Var.one _)
    congr 2

example : ∀ f, convert smR ["stage"] smLines = some f → ∀ mk, ∃ F, open' (fun x => x) mk f ["stage", "Attribute1"] none {} = .ok F := by
  intro f hf mk
  obtain ⟨F, hF, -⟩ := C115_series hf sm_text (by decide) (fun x => x) mk
  have e : (List.range 2).map (nameOf ["stage"]) = ["stage", "Attribute1"] := by decide +kernel
  rw [e] at hF
  exact ⟨F, hF⟩

/-- **C115.** Values that are missing in a line are taken to be zero, without a message; so are all fields after the second one ignored. -/
theorem C115_missing : ∃ lines : List (List (List (Option ℚ))), Text smR [] lines [(0, [1, 5]), (1, [3])] 2 ∧
    ∀ f, convert smR [] lines = some f → ∃ l, f.vars (nameOf [] 1) = some (.one l) ∧ l[1]? = some (0 : ℚ) := by
  have hT : Text smR [] [[[some 0], [some 1, some 5]], [[some 1], [some 3], [some 4]]] [(0, [1, 5]), (1, [3])] 2 :=
    ⟨by decide +kernel, ⟨_, rfl, by decide⟩, ⟨_, rfl, by decide⟩, by decide, by rw [strictly_pairwise]; decide +kernel, by decide +kernel⟩
  refine ⟨_, hT, fun f hf => ?_⟩
  obtain ⟨-, -, -, -, h⟩ := C115_file hf hT
  obtain ⟨l, h1, -, h3⟩ := h 1 (by decide)
  exact ⟨l, h1, h3 1 (1, [3]) rfl⟩

/-- **C115.** A text without values is converted, although the code says that there must be one. -/
theorem C115_none : ∃ f, convert smR [] [[[some (0 : ℚ)], []], [[some 1], []]] = some f :=
  (C115_taken _ _ _).mpr ⟨[(0, []), (1, [])], 0, by decide +kernel, ⟨_, rfl, by decide⟩, ⟨_, rfl, by decide⟩, by decide,
    by rw [strictly_pairwise]; decide +kernel, by decide +kernel⟩

end Verif.TimeFile
