import Verif.Par.Model
import Verif.Sww.ModelMerge

/-!
# Model of the result files of a parallel run

Sources
* `/repo/anuga/abstract_2d_finite_volumes/generic_domain.py` 281-291 (`tri_full_flag`);
* `/repo/anuga/parallel/parallel_api.py` 195-196, 335-345 and `/repo/anuga/parallel/parallel_shallow_water.py` 94-105 (numbers of the
  whole mesh and local-to-global maps handed to the local domain);
* `/repo/anuga/file/sww.py` 203-234 (`store_connectivity`), 829-873 (`store_parallel_data`);
* `/repo/anuga/abstract_2d_finite_volumes/quantity.py` 2204-2233 (coordinates and triangles in the two formats).

Joins the distribution of the mesh (`Verif.Par`) to the merging of the files (`Verif.Sww`).

Simplifications: coordinates are exact and those of the whole mesh (same georeference); what the quantities hold is given; the number of a node is
stored exactly (see `Verif.Sww` and `DESIGN.md` for `V.astype(float32)`).
-/

set_option linter.unusedSectionVars false

namespace Verif.ParFile

open Verif.Par (Local)
open Verif.Mesh (Tri)
open Verif.Sww (Part Stored)

variable {K : Type*} [Field K] [LinearOrder K]

/-- `tri_full_flag`, `generic_domain.py` 285-289: ones, zero where something is received. -/
def fullFlag (nProcs : ℕ) (a : Local) : List ℤ :=
  (List.range nProcs).foldl (fun fl q => ((a.ghostRecv q).map Prod.fst).foldl (fun fl i => fl.set i 0) fl) (List.replicate a.tris.length 1)

/-- What the quantities of one processor hold when they are stored. -/
structure Data (K : Type*) where
  vars : String → Option (Stored K)
  varsC : String → Option (Stored K)

/-- A triangle as a function of the corner. -/
def asFn (t : Tri) : Fin 3 → ℕ := ![t.1, t.2.1, t.2.2]

/-- The file of one processor in the smooth format: `store_connectivity`, `sww.py` 203-234. `X`, `Y` are the coordinates of the whole mesh, which
processor 0 hands out by node (`distribute_mesh.py` 366-372, 552-556). -/
def smoothFile (nProcs nTri : ℕ) (X Y : List K) (start : K) (times : List K) (a : Local) (d : Data K) : Part K where
  starttime := start
  times := times
  volumes := a.tris.map asFn
  x := a.nodes.map fun n => X.getD n 0
  y := a.nodes.map fun n => Y.getD n 0
  triL2g := a.triL2g
  nodeL2g := a.nodeL2g
  full := fullFlag nProcs a
  nTri := nTri
  nNode := X.length
  vars := d.vars
  varsC := d.varsC

/-- The file in the other format: every triangle has its own three points. -/
def plainFile (nProcs nTri : ℕ) (X Y : List K) (start : K) (times : List K) (a : Local) (d : Data K) : Part K :=
  { smoothFile nProcs nTri X Y start times a d with
    volumes := (List.range a.tris.length).map fun i => ![3 * i, 3 * i + 1, 3 * i + 2]
    x := a.tris.flatMap fun t => [X.getD (a.nodes.getD t.1 0) 0, X.getD (a.nodes.getD t.2.1 0) 0, X.getD (a.nodes.getD t.2.2 0) 0]
    y := a.tris.flatMap fun t => [Y.getD (a.nodes.getD t.1 0) 0, Y.getD (a.nodes.getD t.2.1 0) 0, Y.getD (a.nodes.getD t.2.2 0) 0] }

/-- The files of all processors. -/
def files (write : Local → Data K → Part K) (parts : List Local) (data : ℕ → Data K) : List (Part K) :=
  parts.zipIdx.map fun x => write x.1 (data x.2)

end Verif.ParFile
