import Verif.Gate.Model

/-!
# What is expected of rating tables
-/

namespace Verif.Gate

set_option linter.unusedSectionVars false

variable {K : Type*} [Field K] [LinearOrder K] [IsStrictOrderedRing K]

/-- Rows of a curve in order: head water does not fall, discharge rises. -/
def Rows (l : List (K × K)) : Prop := l.IsChain fun p q => p.1 ≤ q.1 ∧ p.2 < q.2

/-- Points of a curve in order: head water and discharge rise. -/
def Rising (l : List (K × K)) : Prop := l.IsChain fun p q => p.1 < q.1 ∧ p.2 < q.2

/-- `(x, y)` is on the broken line through the points. -/
def OnCurve (l : List (K × K)) (x y : K) : Prop :=
  ∃ p q, [p, q] <:+: l ∧ p.1 ≤ x ∧ x ≤ q.1 ∧ (y - p.2) * (q.1 - p.1) = (q.2 - p.2) * (x - p.1)

/-- `res` is `l` with one point for each head water: the lowest discharge, but the highest for the largest head water. -/
def Kept (l res : List (K × K)) : Prop :=
  Rising res ∧ res.Sublist l ∧ ∀ p ∈ l, ∃ r ∈ res, r.1 = p.1 ∧ ∀ p' ∈ l, p'.1 = p.1 →
    ((∃ q ∈ l, p.1 < q.1) → r.2 ≤ p'.2) ∧ ((∀ q ∈ l, q.1 ≤ p.1) → p'.2 ≤ r.2)

/-- A curve: starts without flow at the tail water, ends at the largest head water. -/
structure Curve.Ok (c : Curve K) : Prop where
  rising : Rising c.data
  first : c.data.head? = some (c.tw, 0)
  last : (c.data.getLast?).map Prod.fst = some c.hwMax
  range : c.tw < c.hwMax

/-- A table: a free flow curve from `lo` to `hi`, and curves for rising tail waters. -/
structure Rating.Ok (r : Rating K) : Prop where
  rising : Rising r.free
  first : ∃ q, 0 ≤ q ∧ r.free.head? = some (r.lo, q)
  last : (r.free.getLast?).map Prod.fst = some r.hi
  range : r.lo < r.hi
  tails : r.curves.IsChain fun a b => a.tw < b.tw
  curves : ∀ c ∈ r.curves, c.Ok

end Verif.Gate
