import Verif.Cut.Model

/-! # What cutting out should keep -/

namespace Verif.Cut

variable {K : Type*} [Field K] [LinearOrder K]

/-- Entry `i` of `l` is in the slice `l[a:b]`. -/
def Kept (l : List K) (a b i : ℕ) : Prop := a ≤ i ∧ i < b ∧ i < l.length

/-- `v` is not below the lower bound, if there is one. -/
def Above (lo : Option K) (v : K) : Prop := ∀ m, lo = some m → m ≤ v

/-- `v` is not above the upper bound, if there is one. -/
def Below (hi : Option K) (v : K) : Prop := ∀ m, hi = some m → v ≤ m

/-- The slice `l[a:b]` covers the range from `lo` to `hi` and goes beyond it by at most one entry at each end. -/
structure Covers (l : List K) (a b : ℕ) (lo hi : Option K) : Prop where
  /-- every entry in the range is kept -/
  all : ∀ (i : ℕ) v, l[i]? = some v → Above lo v → Below hi v → Kept l a b i
  /-- if the entries reach down to the lower bound, so do those kept -/
  low : ∀ m, lo = some m → (∃ v ∈ l, v ≤ m) → Below hi m → ∃ (i : ℕ) (v : K), Kept l a b i ∧ l[i]? = some v ∧ v ≤ m
  /-- if the entries reach up to the upper bound, so do those kept -/
  high : ∀ m, hi = some m → (∃ v ∈ l, m ≤ v) → Above lo m → ∃ (i : ℕ) (v : K), Kept l a b i ∧ l[i]? = some v ∧ m ≤ v
  /-- at most one entry below the range is kept -/
  oneLow : ∀ m, lo = some m → ∀ (i j : ℕ) (v w : K), Kept l a b i → Kept l a b j → l[i]? = some v → l[j]? = some w → v < m → w < m → i = j
  /-- at most one entry at the upper bound or above it is kept -/
  oneHigh : ∀ m, hi = some m → ∀ (i j : ℕ) (v w : K), Kept l a b i → Kept l a b j → l[i]? = some v → l[j]? = some w → m ≤ v → m ≤ w → i = j

end Verif.Cut
