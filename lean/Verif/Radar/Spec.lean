import Verif.Radar.Model
import Mathlib.Data.List.Perm.Basic

/-!
# What is asked for
-/

namespace Verif.Radar

variable {K : Type} [Field K] [LinearOrder K]

/-- The time of the file is not before `start` and not after `final`, where these are given. -/
def InTime (start final : Option K) (f : File K) : Prop := (∀ t, start = some t → t ≤ f.time) ∧ ∀ t, final = some t → f.time ≤ t

/-- All files have `n` values. -/
def Sized (n : ℕ) (files : List (File K)) : Prop := ∀ f ∈ files, f.rain.length = n

/-- `l` holds the files in time and no others, as often as they are there. -/
def Chosen (start final : Option K) (files l : List (File K)) : Prop :=
  ∃ rest, files.Perm (l ++ rest) ∧ (∀ f ∈ l, InTime start final f) ∧ ∀ f ∈ rest, ¬ InTime start final f

end Verif.Radar
