import Mathlib.Algebra.Order.Field.Basic

/-!
# Vocabulary for the evolve-loop properties (independent of the model)
-/

namespace Verif.Evolve

variable {K : Type*} [Field K] [LinearOrder K]

/-- `n` requested output times `t0 + ys, ..., t0 + n*ys` lie strictly before `tf - eps`, and the next one does not. -/
def CountBefore (t0 ys tf eps : K) (n : ℕ) : Prop :=
  (∀ k : ℕ, k < n → t0 + ((k : K) + 1) * ys < tf - eps) ∧ tf - eps ≤ t0 + ((n : K) + 1) * ys

/-- The output times a user asks for when running from `t0` to `tf` with output interval `ys`
(not including the initial one): every multiple of `ys` strictly before `tf - eps`, then `tf` itself. -/
def schedule (t0 ys tf : K) (n : ℕ) : List K :=
  (List.range n).map (fun k : ℕ => t0 + ((k : K) + 1) * ys) ++ [tf]

/-- Length of the run of `true` at the end of a list. -/
def trailing (l : List Bool) : ℕ := (l.reverse.takeWhile id).length

end Verif.Evolve
