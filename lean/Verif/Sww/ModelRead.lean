import Verif.Sww.ModelMerge

/-! Model of `sww_merge` for files of separate meshes (`anuga/utilities/sww_merge.py` 18-23, 48-204) and of reading a file back:
`get_mesh_and_quantities_from_file`, `weed`, `get_time_interp`, `interpolated_quantity`
(`anuga/file/sww.py` 1321-1586). -/

set_option linter.unusedSectionVars false

namespace Verif.Sww

variable {K : Type*} [Field K] [LinearOrder K] [IsStrictOrderedRing K]

/-- A file as far as `_sww_merge` looks at it: the origin of the coordinates (94-104), one static quantity (the elevation; 68) and the three
dynamic ones (stage and the two momenta; 69). -/
structure Sheet (K : Type*) where
  xll : K
  yll : K
  starttime : K
  times : List K
  volumes : List (Fin 3 → ℕ)
  x : List K
  y : List K
  elevation : List K
  dyn : Fin 3 → List (List K)

/-- The loop over the files (73-145) once the lists have been started from the first one: triangles are renumbered by the number of points so
far, arrays are appended.  `enumerate` over more time slices than the first file has raises an `IndexError`; with fewer the rows end up with
different lengths, which cannot be written (187-190).  Both are `none`. -/
def appendSheets : Sheet K → List (Sheet K) → Option (Sheet K)
  | acc, [] => some acc
  | acc, s :: rest =>
    if ∀ q, (s.dyn q).length = (acc.dyn q).length then
      appendSheets
        { acc with
          volumes := acc.volumes ++ s.volumes.map (fun v k => v k + acc.x.length)
          x := acc.x ++ s.x
          y := acc.y ++ s.y
          elevation := acc.elevation ++ s.elevation
          dyn := fun q => List.zipWith (· ++ ·) (acc.dyn q) (s.dyn q) } rest
    else none

/-- `_sww_merge` (48-204).  The header is written from the list of times, so that the start time of the result is the first of the stored,
relative times (162-166; `sww.py` 631-645); the start time of the files is not looked at. -/
def mergeSheets : List (Sheet K) → Option (Sheet K)
  | [] => none
  | first :: rest =>
    match appendSheets first rest with
    | none => none
    | some r => some { r with starttime := r.times.headD 0, times := r.times.map (· - r.times.headD 0) }

/-- The keys of a dictionary filled from a list: first occurrences in order (`sww.py` 1533-1550). -/
def firsts {α : Type*} [DecidableEq α] : List α → List α
  | l => l.foldl (fun acc a => if a ∈ acc then acc else acc ++ [a]) []

/-- `weed` without boundary (`sww.py` 1523-1586): equal points become one, the triangles are renumbered.  A vertex number without point raises
a `KeyError`. -/
def weed {α : Type*} [DecidableEq α] (points : List α) (volumes : List (Fin 3 → ℕ)) : Option (List α × List (Fin 3 → ℕ)) :=
  if ∀ v ∈ volumes, ∀ k, v k < points.length then
    some (firsts points, volumes.map fun v k => match points[v k]? with
      | some a => (firsts points).idxOf a
      | none => 0)
  else none

/-- `get_mesh_and_quantities_from_file` (`sww.py` 1321-1462): nodes and triangles of the mesh, weeded unless the file says it is smooth,
and an array of values as stored.  (For files saying they are smooth the array has one value per node and `gather` returns it.) -/
def readMesh {α : Type*} [DecidableEq α] (smoothing : Bool) (points : List α) (volumes : List (Fin 3 → ℕ)) (values : List K) :
    Option (List α × List (Fin 3 → ℕ) × List K) :=
  if smoothing then some (points, volumes, values)
  else match weed points volumes with
    | some (p, v) => some (p, v, values)
    | none => none

/-- `while tau > time[index]: index += 1` (`sww.py` 1487-1488); running off the end raises. -/
def climb (tau : K) (time : List K) : ℕ → ℕ → Option ℕ
  | 0, _ => none
  | fuel + 1, i =>
    match time[i]? with
    | none => none
    | some a => if a < tau then climb tau time fuel (i + 1) else some i

/-- `while tau < time[index]: index -= 1` (`sww.py` 1489-1490).  At index 0 the next index would be `-1`, the last entry; this is not reached, as
times before the first one are refused. -/
def descend (tau : K) (time : List K) : ℕ → Option ℕ
  | 0 => match time[0]? with
    | none => none
    | some a => if tau < a then none else some 0
  | i + 1 => match time[i + 1]? with
    | none => none
    | some a => if tau < a then descend tau time i else some (i + 1)

/-- `get_time_interp` with a time (`sww.py` 1465-1498): index and ratio. -/
def timeInterp (time : List K) (tau : K) : Option (ℕ × K) :=
  match time.head?, time.getLast? with
  | some a, some b =>
    if tau < a ∨ b < tau then none
    else
      match climb tau time (time.length + 1) 0 with
      | none => none
      | some i =>
        match descend tau time i with
        | none => none
        | some j =>
          match time[j]? with
          | none => none
          | some c =>
            if tau = c then some (j, 0)
            else match time[j + 1]? with
              | none => none
              | some d => some (j, (tau - c) / (d - c))
  | _, _ => none

/-- `interpolated_quantity` (`sww.py` 1501-1520). -/
def interpolated (Q : List (List K)) (p : ℕ × K) : Option (List K) :=
  if 0 < p.2 then
    match Q[p.1]?, Q[p.1 + 1]? with
    | some a, some b => some (List.zipWith (fun u v => (1 - p.2) * u + p.2 * v) a b)
    | _, _ => none
  else Q[p.1]?

end Verif.Sww
