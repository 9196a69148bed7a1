import Verif.Basic
import Mathlib.Data.List.Sort
import Mathlib.Data.List.Dedup

/-!
# Model of going on from checkpoint files

Sources
* `/repo/anuga/shallow_water/checkpoint.py` 26-80 (`load_checkpoint_file`), 83-121 (`_get_checkpoint_times`).

Simplifications
* messages which are sent arrive: in each exchange every processor receives what the others have sent (a processor sends to all before it
  receives, so that messages have to be stored on the way);
* a file is given by its name before and after the last `_`; which numbers the latter are is a parameter, as is what is loaded for a time;
* counters of the domain which are reset after loading are left out.
-/

namespace Verif.Check

variable {B T K D : Type} [DecidableEq B] [LinearOrder K]

/-- What one processor finds: name of its domain (30-31), directories with their files (88) and what is in the file for a time (45-58). -/
structure Disk (B T K D : Type) where
  name : B
  dirs : List (List (B × T))
  load : K → Option D

/-- 95-102: one directory; a time which is no number is an exception. -/
def timesIn (num : T → Option K) (name : B) : List (B × T) → Option (List K)
  | [] => some []
  | f :: fs =>
    if f.1 = name then
      match num f.2, timesIn num name fs with
      | some t, some ts => some (t :: ts)
      | _, _ => none
    else timesIn num name fs

/-- 88-102: all directories; one without files ends the function with `None`, which is an exception in line 37. -/
def timesOf (num : T → Option K) (name : B) : List (List (B × T)) → Option (List K)
  | [] => some []
  | d :: ds =>
    if d = [] then none
    else
      match timesIn num name d, timesOf num name ds with
      | some a, some b => some (a ++ b)
      | _, _ => none

/-- 109-116: times of processor `p` which the others have too. -/
def combined (found : List (List K)) (p : ℕ) : List K :=
  (List.range found.length).foldl (fun c cpu => if cpu = p then c else c.filter fun t => decide (t ∈ found.getD cpu [])) (found.getD p []).dedup

/-- What becomes of it: the domains on all processors, an exception on all of them, or an exception on some while others wait. -/
inductive Outcome (D : Type) where
  | loaded (ds : List D)
  | failed
  | broken
  deriving DecidableEq

/-- 47-76: each processor goes through its times; `lists` are those left on each of them. `n` bounds the number of rounds. -/
def rounds (disks : List (Disk B T K D)) : ℕ → List (List K) → Outcome D
  | 0, _ => .broken
  | n + 1, lists =>
    if lists.all List.isEmpty then .failed
    else
      match lists.mapM List.head? with
      | none => .broken
      | some ts =>
        match (disks.zip ts).mapM fun e => e.1.load e.2 with
        | some ds => .loaded ds
        | none => rounds disks n (lists.map List.tail)

/-- `load_checkpoint_file`, 26-80, on all processors together. -/
def loadAll (num : T → Option K) (time : Option K) (disks : List (Disk B T K D)) : Outcome D :=
  match time with
  | some t => rounds disks 2 (disks.map fun _ => [t])
  | none =>
    match disks.mapM fun d => timesOf num d.name d.dirs with
    | none => .broken
    | some found =>
      let lists := (List.range disks.length).map fun p => ((combined found p).insertionSort (· ≤ ·)).reverse
      rounds disks ((lists.headD []).length + 1) lists

end Verif.Check
