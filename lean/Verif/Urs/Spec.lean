import Verif.Urs.Model

/-!
# Which points are needed
-/

namespace Verif.Urs

variable {K : Type} [Field K] [LinearOrder K] [FloorRing K]

/-- `a` and `b` are neighbouring corners of the polygon (in this order). -/
def Side (poly : List (K × K)) (a b : K × K) : Prop :=
  ∃ i : ℕ, i < poly.length ∧ poly[i]? = some a ∧ poly[(i + 1) % poly.length]? = some b

/-- `x` lies between `u` and `v`. -/
def Between (u v x : K) : Prop := (u ≤ x ∧ x ≤ v) ∨ (v ≤ x ∧ x ≤ u)

/-- Line number `i` of a grid bounds the cell which holds `x`. -/
def Bounds (origin spacing x : K) (i : ℤ) : Prop :=
  (origin + i * spacing ≤ x ∧ x < origin + (i + 1) * spacing) ∨ (origin + (i - 1) * spacing ≤ x ∧ x < origin + i * spacing)

/-- `p` is not farther than `far` from the straight line through `a` and `b`. -/
def Near (p a b : K × K) (far : K) : Prop :=
  ((b.1 - a.1) * (a.2 - p.2) - (a.1 - p.1) * (b.2 - a.2)) ^ 2 ≤ far ^ 2 * ((b.1 - a.1) ^ 2 + (b.2 - a.2) ^ 2)

/-- `a` and `b` are the same or at least one metre apart. -/
def Apart (a b : K × K) : Prop := a = b ∨ 1 ≤ (b.1 - a.1) ^ 2 + (b.2 - a.2) ^ 2

end Verif.Urs
