import Verif.Tools.Model

/-! What users rely on, stated without the helpers of the model. -/

set_option linter.unusedSectionVars false

namespace Verif.Tools

variable {K : Type*} [Field K] [LinearOrder K] [IsStrictOrderedRing K]

/-- Number of values `x` of the data with `lo ≤ x < hi`. -/
def inClass (a : List K) (lo hi : K) : ℕ := a.countP fun x => decide (lo ≤ x ∧ x < hi)

/-- Number of values `x` of the data with `lo ≤ x`. -/
def above (a : List K) (lo : K) : ℕ := a.countP fun x => decide (lo ≤ x)

/-- `m` is the least value of the data. -/
def IsMin (a : List K) (m : K) : Prop := m ∈ a ∧ ∀ x ∈ a, m ≤ x

/-- `m` is the greatest value of the data. -/
def IsMax (a : List K) (m : K) : Prop := m ∈ a ∧ ∀ x ∈ a, x ≤ m

end Verif.Tools
