import Verif.MaxOps.Model
import Mathlib.Order.Bounds.Basic

/-! Which states are collected, and what the maxima of them are. -/

namespace Verif.MaxOps

noncomputable section

variable {n : ℕ}

/-- How many calls came after the start of collecting. -/
def after (start : ℝ) (l : List (ℝ × State n)) : ℕ := (l.filter fun c => decide (start < c.1)).length

/-- The state `q` is that of a call whose number among the calls after the start is a multiple of `m`. -/
def Sampled (start : ℝ) (m : ℕ) (l : List (ℝ × State n)) (q : State n) : Prop :=
  ∃ k t, l[k]? = some (t, q) ∧ start < t ∧ m ∣ after start (l.take (k + 1))

/-- A value is the greatest of `init` and of the values of the states. -/
def GreatestOf (init : ℝ) (P : State n → Prop) (f : State n → ℝ) (v : ℝ) : Prop := IsGreatest {v | v = init ∨ ∃ q, P q ∧ v = f q} v

/-- Speed of the flow in a triangle, zero where the water is not deeper than `zeroH`. -/
def speedOf (zeroH : ℝ) (c : Cell) : ℝ :=
  if zeroH < c.stage - c.elev then Real.sqrt (c.xmom ^ 2 + c.ymom ^ 2) / (c.stage - c.elev) else 0

end

end Verif.MaxOps
