import Verif.Sww.Model
import Mathlib.Order.Monotone.Defs

/-! What output files are expected to hold, said without the writer. -/

set_option linter.unusedSectionVars false

namespace Verif.Sww

variable {K : Type*} [Field K] [LinearOrder K] [IsStrictOrderedRing K]

/-- Conversion to a shorter number format: keeps order, leaves short numbers alone. -/
structure Rounding (rnd : K → K) : Prop where
  mono : Monotone rnd
  idem : ∀ x, rnd (rnd x) = rnd x
  zero : rnd 0 = 0

/-- All arrays of a domain with `N` points and `M` triangles have these lengths. -/
structure Sized (N M : ℕ) (s : State K) : Prop where
  vert : ∀ n, (s.vert n).length = N
  cent : ∀ n, (s.cent n).length = M

/-- The value that should appear for quantity `n` at a point where the stage is `w`, the bed is `z` and the
quantity itself is `a`: the quantity, except that where the water is less than `h` deep the stage
is the bed and the momenta are zero. -/
def visible (h : K) (n : String) (w z a : K) : K :=
  if h ≤ w - z then a else if n = "stage" then z else if n = "xmomentum" ∨ n = "ymomentum" then 0 else a

/-- A stored row shows a state: point by point the visible value, rounded. -/
def Shows (rnd : K → K) (h : K) (n : String) (s : State K) (row : List K) : Prop :=
  row.length = (s.vert n).length ∧
    ∀ (i : ℕ) (w z a : K), (s.vert "stage")[i]? = some w → (s.vert "elevation")[i]? = some z → (s.vert n)[i]? = some a →
      row[i]? = some (rnd (visible h n w z a))

/-- Bounds of everything in a variable. -/
def Bounds (rows : List (List K)) (lo hi : K) : Prop := ∀ row ∈ rows, ∀ x ∈ row, lo ≤ x ∧ x ≤ hi

/-- Bounds that are attained. -/
def TightBounds (rows : List (List K)) (lo hi : K) : Prop :=
  Bounds rows lo hi ∧ (∃ row ∈ rows, lo ∈ row) ∧ ∃ row ∈ rows, hi ∈ row

/-- Times one after the other, at least `d` apart. -/
def Apart (d : K) (ts : List K) : Prop := ts.Pairwise (fun a b => a + d ≤ b)

/-- Every `freq`-th of a list of moments, beginning with the first. -/
def EveryNth {α : Type*} (freq : ℕ) (all some' : List α) : Prop := ∀ k : ℕ, some'[k]? = all[k * freq]?

end Verif.Sww
