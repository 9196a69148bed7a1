import Verif.Sww.Props
import Mathlib.Tactic.FinCases

/-! A small run: two points, one triangle, three stored steps; single precision is played by rounding
down to whole numbers. -/

set_option linter.unusedSectionVars false

namespace Verif.Sww

/-- Rounding down. -/
def down (x : ℚ) : ℚ := (Rat.floor x : ℚ)

theorem down_rounding : Rounding down where
  mono := by
    intro a b h
    have h2 : a.floor ≤ b.floor := Rat.le_floor_iff.mpr (le_trans (Rat.floor_le a) h)
    simp only [down]
    exact_mod_cast h2
  idem x := by
    simp [down]
  zero := by decide +kernel

/-- Writer with stage, momenta and friction dynamic, centroid stage, threshold 1. -/
def wr : Writer ℚ where
  dynamic := ["stage", "xmomentum", "ymomentum", "friction"]
  dynamicC := ["stage"]
  minHeight := 1
  rnd := down
  maxFloat := 1000
  tiny := 1 / 100

/-- Bed at 0 and 2.5, stage `w` at both points, momenta `m` and `-m`, friction `1/2 + m`. -/
def st (w m : ℚ) : State ℚ where
  vert n := if n = "elevation" then [0, 5 / 2] else if n = "stage" then [w, w] else if n = "xmomentum" then [m, m]
    else if n = "ymomentum" then [-m, -m] else [1 / 2 + m, 1 / 2 + m]
  cent _ := [w]

/-- Three calls. -/
def three : List (ℚ × State ℚ) := [(0, st 3 2), (1, st (9 / 2) 4), (2, st (-1) 7)]

theorem st_sized (w m : ℚ) : Sized 2 1 (st w m) :=
  ⟨fun n => by simp only [st]; split_ifs <;> rfl, fun n => rfl⟩

/-- The hypotheses of `C86_history` and `C86_range_exact` hold for the three calls. -/
example : Rounding wr.rnd ∧ wr.dynamic.Nodup ∧ wr.dynamicC.Nodup ∧ "stage" ∈ wr.dynamic ∧
    (three.map (·.1)).Pairwise (· < ·) ∧ (∀ c ∈ three, Sized 2 1 c.2) ∧
    ∀ c ∈ three, ∀ x ∈ shown wr c.2 "stage", wr.rnd (-wr.maxFloat) < x ∧ x < wr.rnd wr.maxFloat := by
  refine ⟨down_rounding, by decide +kernel, by decide +kernel, by decide +kernel, by decide +kernel, ?_, by decide +kernel⟩
  intro c hc
  fin_cases hc
  · exact st_sized 3 2
  · exact st_sized (9 / 2) 4
  · exact st_sized (-1) 7

/-- The slices: at the second point (bed 2.5) water 0.5 deep is shown as dry, later 2 deep as 4 over 2; negative depths
are shown as the bed. -/
example : (storeAll wr three (header wr 10)).map (fun g => (g.times, (g.dyn "stage").rows, (g.dyn "xmomentum").rows,
      (g.dyn "friction").rows, g.dynC "stage"))
    = some ([0, 1, 2], [[3, 2], [4, 4], [0, 2]], [[2, 0], [4, 4], [0, 0]], [[2, 2], [4, 4], [7, 7]], [[3], [4], [-1]]) := by
  decide +kernel

/-- The ranges: stage from 0 to 4. -/
example : (storeAll wr three (header wr 10)).map (fun g => ((g.dyn "stage").lo, (g.dyn "stage").hi)) = some (0, 4) := by
  decide +kernel

/-- **C86, limit.** After a slice was written again the range may be wider than the values in the file: 8 is no longer
stored. -/
theorem C86_range_stale :
    (storeAll wr [(0, st 8 0), (0, st 3 0)] (header wr 0)).map (fun g => (g.times, (g.dyn "stage").rows, (g.dyn "stage").hi))
      = some ([0], [[3, 2]], 8) := by
  decide +kernel

/-- Storing at a time between two stored ones raises (`C86_unknown_time`), storing at a stored one is possible
(`C86_replace`). -/
example : ((storeAll wr three (header wr 10)).bind (storeTimestep wr (st 5 5) (1 / 2))).isNone = true ∧
    ((storeAll wr three (header wr 10)).bind (storeTimestep wr (st 5 5) 1)).map (fun g => (g.times, (g.dyn "stage").rows))
      = some ([0, 1, 2], [[3, 2], [5, 5], [0, 2]]) := by
  decide +kernel

example : ∃ f, storeAll wr three (header wr 10) = some f ∧ Even wr f ∧ Apart wr.tiny f.times ∧ f.times[1]? = some 1 := by
  obtain ⟨f, h1, _, h3, h4, _⟩ := storeAll_spec wr down_rounding (by decide +kernel) (by decide +kernel) (by decide +kernel)
    2 1 (by norm_num) three (header wr 10) ⟨fun n _ => by simp [header], fun n _ => by simp [header]⟩ (by decide +kernel)
    (by
      intro c hc
      fin_cases hc
      · exact st_sized 3 2
      · exact st_sized (9 / 2) 4
      · exact st_sized (-1) 7)
    (fun c _ s hs => by simp [header] at hs)
  refine ⟨f, h1, h4, ?_, ?_⟩
  · rw [h3]; simp only [header, List.nil_append, Apart]; decide +kernel
  · rw [h3]; decide +kernel

/-- A roll-over after 7 seconds of a run started at 100: the new file claims 114. -/
example : (rollOver wr (st 3 2) 100 7 (header wr 100)).map (fun p => absoluteTimes p.2) = some [114] := by decide +kernel

/-- Every second moment of three calls that ran to their end. -/
example : runs 2 0 [(([0, 1, 2] : List ℕ), false), ([3], false), ([4, 5, 6], false)] = [0, 2, 4, 6] := by decide +kernel

end Verif.Sww
