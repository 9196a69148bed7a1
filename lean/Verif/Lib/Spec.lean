import Verif.Lib.Model
import Mathlib.Order.Bounds.Basic

/-!
# What greatest values of rasters and ordered points mean
-/

namespace Verif.Lib

variable {S K R : Type} [Field K] [LinearOrder K]

/-- `v` is a number at row `k` and column `i` of one of the files, below the six lines of the header. -/
def Occurs (T : Text S K) (files : List (List S)) (k i : ℕ) (v : K) : Prop :=
  ∃ f ∈ files, ∃ l, f[6 + k]? = some l ∧ T.blank l = false ∧ ∃ r, T.nums l = some r ∧ r[i]? = some v

/-- Row `k` has `n` columns: in every file which has a line there, and at least in one. -/
def Columns (T : Text S K) (files : List (List S)) (k n : ℕ) : Prop :=
  (∃ f ∈ files, ∃ l, f[6 + k]? = some l ∧ T.blank l = false) ∧
  ∀ f ∈ files, ∀ l, f[6 + k]? = some l → T.blank l = false → ∃ r, T.nums l = some r ∧ r.length = n

/-- Files which can be compared. -/
structure Alike (T : Text S K) (files : List (List S)) : Prop where
  some' : files ≠ []
  lines : ∀ f ∈ files, ∀ g ∈ files, f.length = g.length
  header : ∀ f ∈ files, ∀ g ∈ files, f.take 6 = g.take 6
  six : ∀ f ∈ files, 6 ≤ f.length
  rows : ∀ k, (∃ f ∈ files, 6 + k < f.length) → ∃ n, Columns T files k n

/-- Every point is followed by the nearest one of those which come later, and by the one which was first in `data` if several are equally near. -/
def NearestNext (pos : R → K × K) (data o : List R) : Prop :=
  ∀ pre p q post, o = pre ++ p :: q :: post → ∀ r ∈ post,
    ((pos q).1 - (pos p).1) ^ 2 + ((pos q).2 - (pos p).2) ^ 2 < ((pos r).1 - (pos p).1) ^ 2 + ((pos r).2 - (pos p).2) ^ 2 ∨
    ((pos q).1 - (pos p).1) ^ 2 + ((pos q).2 - (pos p).2) ^ 2 = ((pos r).1 - (pos p).1) ^ 2 + ((pos r).2 - (pos p).2) ^ 2 ∧
      List.Sublist [q, r] data

end Verif.Lib
