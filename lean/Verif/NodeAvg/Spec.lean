import Mathlib.Algebra.BigOperators.Group.Finset.Basic
import Mathlib.Algebra.Field.Basic

/-!
# Specification of node values
-/

namespace Verif.NodeAvg

variable {K : Type*} [Field K]

/-- The corners (position in the flattened triangle list) that sit at node `v`. -/
def cornersAt (flat : List ℕ) (v : ℕ) : Finset ℕ := (Finset.range flat.length).filter (fun c => flat[c]? = some v)

/-- Mean of `val` over the corners at `v`. -/
def cornerMean (flat : List ℕ) (val : ℕ → K) (v : ℕ) : K := (∑ c ∈ cornersAt flat v, val c) / ((cornersAt flat v).card : K)

/-- No unused node comes before a used one. -/
def NoGaps (flat : List ℕ) : Prop := ∀ v w, w ∈ flat → v ≤ w → v ∈ flat

end Verif.NodeAvg
