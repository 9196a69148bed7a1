import Verif.Sww.Model
import Mathlib.Algebra.Order.Floor.Defs
import Mathlib.Algebra.Order.Floor.Ring
import Mathlib.Data.List.Sort
import Mathlib.Data.List.Dedup

/-! Model of `anuga/utilities/sww_merge.py`: `sww_merge_parallel` (26-46) with its two branches
`_sww_merge_parallel_smooth` (198-555) and `_sww_merge_parallel_non_smooth` (557-801), which put together
the files written by the processors of a parallel run.  Not modelled: the remaining attributes (order,
datum, projection, georeference: copied from the first file), deletion of the old files.  All stored
numbers are single precision on both sides, so the conversions are dropped.  An exception is `none`. -/

set_option linter.unusedSectionVars false

namespace Verif.Sww

/-- A variable in a file: one array, or one for every time. -/
inductive Stored (K : Type*)
  | static (v : List K)
  | dynamic (rows : List (List K))
  deriving DecidableEq

/-- `shape[0]` of a variable. -/
def Stored.len {K : Type*} : Stored K → ℕ
  | .static v => v.length
  | .dynamic rows => rows.length

/-- The file of one processor: ordinary content, the numbers of its triangles and nodes in the whole mesh, and the flag telling its own
triangles from the copies of neighbours' triangles (`anuga/file/sww.py` 608-678, 847-893). -/
structure Part (K : Type*) where
  starttime : K
  times : List K
  volumes : List (Fin 3 → ℕ)
  x : List K
  y : List K
  triL2g : List ℕ
  nodeL2g : List ℕ
  full : List ℤ
  nTri : ℕ
  nNode : ℕ
  vars : String → Option (Stored K)
  varsC : String → Option (Stored K)

/-- The merged file. `smoothing` is the attribute of that name. -/
structure Merged (K : Type*) where
  starttime : K
  times : List K
  smoothing : Bool
  volumes : List (Fin 3 → ℕ)
  x : List K
  y : List K
  vars : List (String × Stored K)
  varsC : List (String × Stored K)

section Arrays

variable {α : Type*}

/-- `a[idx]` for an array of indices: any index out of range raises. -/
def gather (a : List α) (idx : List ℕ) : Option (List α) := idx.mapM (fun i => a[i]?)

/-- Assignments one after the other. -/
def setAll (a : List α) (w : List (ℕ × α)) : List α := w.foldl (fun l p => l.set p.1 p.2) a

/-- `a[idx] = v`: raises if an index is out of range or the lengths differ (repetition of a single
value is left out); with repeated indices the last one counts. -/
def scatter (a : List α) (idx : List ℕ) (v : List α) : Option (List α) :=
  if idx.length = v.length ∧ ∀ i ∈ idx, i < a.length then some (setAll a (idx.zip v)) else none

/-- `num.compress(flags, a)` for arrays of one length. -/
def compress (flags : List ℤ) (a : List α) : List α :=
  (flags.zip a).filterMap (fun p => if p.1 ≠ 0 then some p.2 else none)

/-- The loop over the files for one array of the merged file: from every file an index array and values. -/
def scatterAll {P : Type*} (f : P → Option (List ℕ × List α)) : List P → List α → Option (List α)
  | [], g => some g
  | p :: ps, g =>
    match f p with
    | none => none
    | some (idx, v) =>
      match scatter g idx v with
      | none => none
      | some h => scatterAll f ps h

end Arrays

variable {K : Type*} [Field K] [LinearOrder K] [IsStrictOrderedRing K]

/-- `num.where(tri_full_flag>0)` (361). -/
def Part.positive (p : Part K) : List ℕ := (List.range p.full.length).filter (fun i => decide (0 < p.full.getD i 0))

/-- `num.argwhere(tri_full_flag == 1)` (671). -/
def Part.ones (p : Part K) : List ℕ := (List.range p.full.length).filter (fun i => decide (p.full.getD i 0 = 1))

/-- The nodes of own triangles, `num.unique(num.compress(tri_full_flag, volumes, axis=0))` (402-403). -/
def Part.ownNodes (p : Part K) : List ℕ :=
  (((compress p.full p.volumes).flatMap fun v => [v 0, v 1, v 2]).insertionSort (· ≤ ·)).dedup

/-- `g_volumes[ftri_l2g, k] = node_l2g[f_volumesk]` for the three corners (372-378). -/
def smoothTri (p : Part K) : Option (List ℕ × List (Fin 3 → ℕ)) :=
  match gather p.nodeL2g ((compress p.full p.volumes).map (· 0)), gather p.nodeL2g ((compress p.full p.volumes).map (· 1)),
      gather p.nodeL2g ((compress p.full p.volumes).map (· 2)) with
  | some a, some b, some c => some (compress p.full p.triL2g, List.zipWith3 (fun i j k => ![i, j, k]) a b c)
  | _, _, _ => none

/-- `g_points[node_l2g,0] = x` (389-390). -/
def smoothPoint (coord : Part K → List K) (p : Part K) : Option (List ℕ × List K) := some (p.nodeL2g, coord p)

/-- `out[f_node_l2g] = values[fl_nodes]` (404, 411-431). -/
def smoothNode (value : Part K → Option (List K)) (p : Part K) : Option (List ℕ × List K) :=
  match value p with
  | none => none
  | some v =>
    match gather p.nodeL2g p.ownNodes, gather v p.ownNodes with
    | some idx, some w => some (idx, w)
    | _, _ => none

/-- `out[ftri_l2g] = values[ftri_ids]` (434-449). -/
def smoothCentroid (value : Part K → Option (List K)) (p : Part K) : Option (List ℕ × List K) :=
  match value p with
  | none => none
  | some v =>
    match gather v p.positive with
    | some w => some (compress p.full p.triL2g, w)
    | none => none

/-- `3*ids.reshape(-1,1) + [0,1,2]`, flattened (674-675). -/
def corners (ids : List ℕ) : List ℕ := ids.flatMap fun i => [3 * i, 3 * i + 1, 3 * i + 2]

/-- `out[g_vids] = values[l_vids]` (671-697, 772-781). -/
def plainVertex (value : Part K → Option (List K)) (p : Part K) : Option (List ℕ × List K) :=
  match value p with
  | none => none
  | some v =>
    match gather p.triL2g p.ones, gather v (corners p.ones) with
    | some g, some w => some (corners g, w)
    | _, _ => none

/-- `out[f_gids] = values[f_ids]` (700-704, 782-784). -/
def plainCentroid (value : Part K → Option (List K)) (p : Part K) : Option (List ℕ × List K) :=
  match value p with
  | none => none
  | some v =>
    match gather p.triL2g p.ones, gather v p.ones with
    | some g, some w => some (g, w)
    | _, _ => none

/-- A static variable of a file read as an array (413-418, 691-704).  A variable with a time dimension has the wrong
shape for the assignment. -/
def staticValue (sel : Part K → String → Option (Stored K)) (n : String) (p : Part K) : Option (List K) :=
  match sel p n with
  | some (.static v) => some v
  | _ => none

/-- Time slice `i` of a variable of a file (421-431, 776-784).  A slice of a static variable is a single number, which cannot be
indexed. -/
def dynamicValue (sel : Part K → String → Option (Stored K)) (n : String) (i : ℕ) (p : Part K) : Option (List K) :=
  match sel p n with
  | some (.dynamic rows) => rows[i]?
  | _ => none

/-- One quantity of the merged file (266-286, 297-312, 409-449, 628-655, 684-704, 752-788): dynamic exactly if the first dimension of
the variable in the first file is the number of times. -/
def mergeVar (layer : (Part K → Option (List K)) → Part K → Option (List ℕ × List K))
    (sel : Part K → String → Option (Stored K)) (size nsteps : ℕ) (first : Part K) (parts : List (Part K)) (n : String) :
    Option (Stored K) :=
  match sel first n with
  | none => none
  | some v =>
    if nsteps = v.len then
      match (List.range nsteps).mapM (fun i =>
          scatterAll (layer (dynamicValue sel n i)) parts (List.replicate size 0)) with
      | some rows => some (.dynamic rows)
      | none => none
    else
      match scatterAll (layer (staticValue sel n)) parts (List.replicate size 0) with
      | some v => some (.static v)
      | none => none

/-- The names looked for (266-267, 296-297). -/
def quantityNames : List String :=
  ["elevation", "friction", "stage", "xmomentum", "ymomentum", "xvelocity", "yvelocity", "height"]

/-- All quantities found in the first file. -/
def mergeVars (layer : (Part K → Option (List K)) → Part K → Option (List ℕ × List K))
    (sel : Part K → String → Option (Stored K)) (size nsteps : ℕ) (first : Part K) (parts : List (Part K)) :
    Option (List (String × Stored K)) :=
  (quantityNames.filter fun n => (sel first n).isSome).mapM fun n =>
    (mergeVar layer sel size nsteps first parts n).map fun v => (n, v)

variable [FloorRing K]

/-- `int(starttime)` (233). -/
def trunc (a : K) : K := if 0 ≤ a then (⌊a⌋ : K) else (⌈a⌉ : K)

/-- `_sww_merge_parallel_smooth` (198-555). -/
def mergeSmooth (first : Part K) (parts : List (Part K)) : Option (Merged K) :=
  match scatterAll smoothTri parts (List.replicate first.nTri fun _ => 0),
      scatterAll (smoothPoint Part.x) parts (List.replicate first.nNode 0),
      scatterAll (smoothPoint Part.y) parts (List.replicate first.nNode 0),
      mergeVars smoothNode Part.vars first.nNode first.times.length first parts,
      mergeVars smoothCentroid Part.varsC first.nTri first.times.length first parts with
  | some v, some x, some y, some q, some c => some ⟨trunc first.starttime, first.times, true, v, x, y, q, c⟩
  | _, _, _, _, _ => none

/-- `_sww_merge_parallel_non_smooth` (557-801).  The header is written with the default `smoothing=True`
(718-723, `sww.py` 617). -/
def mergePlain (first : Part K) (parts : List (Part K)) : Option (Merged K) :=
  match scatterAll (plainVertex fun p => some p.x) parts (List.replicate (3 * first.nTri) 0),
      scatterAll (plainVertex fun p => some p.y) parts (List.replicate (3 * first.nTri) 0),
      mergeVars plainVertex Part.vars (3 * first.nTri) first.times.length first parts,
      mergeVars plainCentroid Part.varsC first.nTri first.times.length first parts with
  | some x, some y, some q, some c =>
    some ⟨trunc first.starttime, first.times, true,
      (List.range first.nTri).map (fun t => ![3 * t, 3 * t + 1, 3 * t + 2]), x, y, q, c⟩
  | _, _, _, _ => none

/-- `sww_merge_parallel` (26-46): the format is guessed from the numbers of triangles and points in the first file. -/
def mergeParallel : List (Part K) → Option (Merged K)
  | [] => none
  | first :: rest =>
    if 3 * first.volumes.length = first.x.length then mergePlain first (first :: rest)
    else mergeSmooth first (first :: rest)

end Verif.Sww
