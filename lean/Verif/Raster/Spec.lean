import Verif.Raster.Model

/-!
# Bilinear functions on the cells of a grid
-/

namespace Verif.Raster

variable {K : Type*} [Field K] [LinearOrder K] [IsStrictOrderedRing K]

/-- Grid lines: at least two, strictly increasing. -/
def Lines (x : List K) : Prop := 2 ≤ x.length ∧ x.Pairwise (· < ·)

/-- The value stored for grid lines `i` and `j`; `none` is NaN. -/
def Stored (Z : List (List (Option K))) (i j : ℕ) (v : Option K) : Prop := ∃ r, Z[i]? = some r ∧ r[j]? = some v

/-- The matrix has `m` rows of length `n`. -/
def Shape (Z : List (List (Option K))) (m n : ℕ) : Prop := Z.length = m ∧ ∀ r ∈ Z, r.length = n

/-- The function that is linear along both axes with the values given at the corners of a rectangle. -/
def bilin (x0 x1 y0 y1 z00 z10 z01 z11 p q : K) : K :=
  ((x1 - p) * (y1 - q) * z00 + (p - x0) * (y1 - q) * z10 + (x1 - p) * (q - y0) * z01 + (p - x0) * (q - y0) * z11) / ((x1 - x0) * (y1 - y0))

/-- Interval `i` of the grid lines, from `a` to `b`, contains the point. -/
def In (x : List K) (i : ℕ) (a b p : K) : Prop := x[i]? = some a ∧ x[i + 1]? = some b ∧ a ≤ p ∧ p ≤ b

end Verif.Raster
