import Mathlib.Algebra.Order.Field.Basic
import Mathlib.Algebra.BigOperators.Group.Finset.Basic

/-!
# Vocabulary for quantity updates
-/

namespace Verif.Quantity

variable {K : Type*} [Field K] [LinearOrder K]

/-- `c'` solves the semi-implicit equation for a value `c` with explicit rate `e` and semi-implicit term `s`: the term `s`
is applied as a rate `s/c` times the new value; it is ignored for `c = 0`. -/
def Solves (dt c e s c' : K) : Prop := c' = c + dt * e + dt * (if c = 0 then 0 else s / c) * c'

/-- `R` is the rate actually applied by a sub-step from `c` to `c'`. -/
def AppliedRate (c e s c' R : K) : Prop := R = e + (if c = 0 then 0 else s / c) * c'

/-- All values lie in their intervals. -/
def InBox {ι : Type*} (lo hi q : ι → K) : Prop := ∀ i, lo i ≤ q i ∧ q i ≤ hi i

end Verif.Quantity
