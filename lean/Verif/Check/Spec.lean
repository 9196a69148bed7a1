import Verif.Check.Model
import Mathlib.Order.Bounds.Basic

/-!
# Which checkpoint is taken
-/

namespace Verif.Check

variable {B T K D : Type} [DecidableEq B] [LinearOrder K]

/-- There is a file of this processor for time `t`. -/
def Has (num : T → Option K) (d : Disk B T K D) (t : K) : Prop := ∃ dir ∈ d.dirs, ∃ f ∈ dir, f.1 = d.name ∧ num f.2 = some t

/-- All processors have a file for time `t` that can be loaded. -/
def Good (num : T → Option K) (disks : List (Disk B T K D)) (t : K) : Prop := ∀ d ∈ disks, Has num d t ∧ ∃ x, d.load t = some x

/-- No directory is without files, and files of the domain have times in their names. -/
def Tidy (num : T → Option K) (d : Disk B T K D) : Prop :=
  ∀ dir ∈ d.dirs, dir ≠ [] ∧ ∀ f ∈ dir, f.1 = d.name → ∃ t, num f.2 = some t

/-- Every processor has loaded its own file for time `t`. -/
def AllAt (disks : List (Disk B T K D)) (t : K) (ds : List D) : Prop :=
  ds.length = disks.length ∧ ∀ (p : ℕ) d, disks[p]? = some d → d.load t = ds[p]?

end Verif.Check
