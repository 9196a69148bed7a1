import Verif.Basic
import Verif.Mesh.Model
import Mathlib.Data.List.Dedup

/-!
# Model of the distribution of a mesh over processors and of the exchange of ghost values

Sources
* `/repo/anuga/parallel/distribute_mesh.py` 103-118 (`reorder_new`), 144-262 (`pmesh_divide_metis_helper`), 311-388
  (`submesh_full`), 507-565 (`ghost_layer`), 640-700 (`ghost_bnd_layer`), 755-763 (`ghost_commun_pattern`), 793-827
  (`full_commun_pattern`), 858-912 (`submesh_ghost`), 932-970 (`submesh_quantities`), 986-1015 (`build_submesh`),
  1068-1106 (`build_local_GA`), 1127-1172 (`build_local_commun`), 1192-1250 (`build_local_mesh`), 1596-1640
  (`extract_submesh`), 1643-1663 (`extract_l2g_map`)
* `/repo/anuga/parallel/sequential_distribute.py` and `/repo/anuga/parallel/parallel_api.py` 71-150 (order of the calls)
* `/repo/anuga/parallel/parallel_generic_communications.py` 35-86 (`communicate_flux_timestep`), 155-250
  (`communicate_ghosts_non_blocking`)

Simplifications
* what METIS returns is an arbitrary list `epart` with one processor number per triangle;
* `get_boundary_polygon` in `build_submesh`, the geo reference and the names are left out;
* arrays filled with -1 are lists of integers; arrays of rows are functions of the row number;
* a message is the list of values put into the send buffer; a receive gets the list sent by the named processor to this one
  (MPI's matching of source, destination and tag; there is one message per pair and call);
* dictionaries keyed by processor number (`ghost_recv`, `full_send`) are functions, the empty list stands for a missing key
  (the code makes no empty entries).
-/

namespace Verif.Par

open Verif.Mesh (Tri BDict MeshData MeshErr buildMesh)

/-! ## numpy helpers -/

/-- `num.unique`: sorted, without repetition. -/
def unique {α : Type*} [LinearOrder α] (l : List α) : List α := l.dedup.insertionSort (· ≤ ·)

/-- `numset.setdiff1d`. -/
def setdiff {α : Type*} [LinearOrder α] (a b : List α) : List α := (unique a).filter (fun x => decide (x ∉ b))

/-- `numset.union1d`. -/
def union {α : Type*} [LinearOrder α] (a b : List α) : List α := unique (a ++ b)

/-- `num.bincount`: one count for every number up to the greatest. -/
def bincount (l : List ℕ) : List ℕ := if l = [] then [] else (List.range (l.foldr max 0 + 1)).map (fun p => l.count p)

/-- `num.searchsorted(a, v)` of a sorted array: the first position whose entry is not smaller than `v`. -/
def searchsorted (a : List ℤ) (v : ℤ) : ℕ := (a.takeWhile (fun x => decide (x < v))).length

/-- `num.sort(a, 0)` of an array with two columns: every column is sorted for itself. -/
def sortCols (l : List (ℕ × ℕ)) : List (ℕ × ℕ) :=
  ((l.map Prod.fst).insertionSort (· ≤ ·)).zip ((l.map Prod.snd).insertionSort (· ≤ ·))

/-- `num.put(a, ids, xs)`. -/
def put {α : Type*} (u : ℕ → α) (ids : List ℕ) (xs : List α) : ℕ → α :=
  (ids.zip xs).foldl (fun u x => Function.update u x.1 x.2) u

/-- `d[k] = v` for a dictionary. -/
def dictSet : BDict → ℕ × ℕ → String → BDict
  | [], k, v => [(k, v)]
  | e :: d, k, v => if e.1 = k then (k, v) :: d else e :: dictSet d k v

/-! ## Division of the triangles, `pmesh_divide_metis_helper` -/

/-- `proc_sum`, 207-208; also `tlower` and `tupper` in the loops over processors. -/
def procSum (tpp : List ℕ) (p : ℕ) : ℕ := (tpp.take p).sum

/-- `epart_order`, 210: stable argsort. -/
def orderOf (epart : List ℕ) : List ℕ :=
  (List.range epart.length).insertionSort (fun i j => epart.getD i 0 ≤ epart.getD j 0)

/-- `new_tri_index`, 214-223: processor and place there of every triangle. -/
def triIndex (tpp order : List ℕ) : ℕ → ℕ × ℕ :=
  ((List.range tpp.length).flatMap (fun i =>
    (List.range (tpp.getD i 0)).map (fun j => (order.getD (procSum tpp i + j) 0, (i, j))))).foldl
      (fun f x => Function.update f x.1 x.2) (fun _ => (0, 0))

inductive Err
  /-- the assertion "at least one submesh has no triangles", 205 -/
  | emptyPart
  /-- numpy's shape or index error when METIS used fewer processors than asked for, 208 or 217 -/
  | shape
  | mesh (e : MeshErr)
  deriving DecidableEq

/-- What `pmesh_divide_metis_helper` returns. -/
structure Division where
  tpp : List ℕ
  order : List ℕ
  tris : List Tri
  boundary : BDict

/-- `pmesh_divide_metis_helper`, 144-262, for more than one processor. -/
def divide (nProcs : ℕ) (epart : List ℕ) (tris : List Tri) (boundary : BDict) : Except Err Division :=
  let tpp := bincount epart
  if tpp.all (fun n => decide (0 < n)) then
    if tpp.length = nProcs then
      let order := orderOf epart
      let idx := triIndex tpp order
      .ok { tpp := tpp
            order := order
            tris := order.map (fun i => tris.getD i (0, 0, 0))
            boundary := boundary.map (fun b => ((procSum tpp (idx b.1.1).1 + (idx b.1.1).2, b.1.2), b.2)) }
    else .error .shape
  else .error .emptyPart

/-- `reorder_new`, 103-118: rows in the new order. -/
def reorder {α : Type*} (order : List ℕ) (q : ℕ → α) : ℕ → α := fun i => q (order.getD i 0)

/-! ## Sub meshes -/

def flat (ts : List Tri) : List ℕ := ts.flatMap (fun t => [t.1, t.2.1, t.2.2])

/-- Triangle number of a processor's own triangles. -/
def fullIds (lo up : ℕ) : List ℕ := List.range' lo (up - lo)

/-- `n < tlower or tupper <= n`. -/
def outside (lo up : ℕ) (n : ℤ) : Bool := decide (n < (lo : ℤ)) || decide ((up : ℤ) ≤ n)

/-- Rows of `mesh.neighbours`, made unique, the negative ones and the own triangles removed: 519-522 and 531-534. -/
def around (nb : ℕ × ℕ → ℤ) (lo up : ℕ) (l : List ℕ) : List ℕ :=
  (((unique (l.flatMap (fun k => [nb (k, 0), nb (k, 1), nb (k, 2)]))).filter (fun n => decide (0 ≤ n))).filter
    (outside lo up)).map Int.toNat

/-- `layer_cells` after `i` passes of the loop 528-539, newest first. -/
def layers (nb : ℕ × ℕ → ℤ) (lo up : ℕ) : ℕ → List (List ℕ)
  | 0 => [around nb lo up (fullIds lo up)]
  | i + 1 =>
    let prev := layers nb lo up i
    prev.reverse.foldl (fun n l => setdiff n l) (around nb lo up (prev.headD [])) :: prev

/-- `new_trianglemap`, 542-544: the ghost triangles. -/
def ghostIds (nb : ℕ × ℕ → ℤ) (lo up width : ℕ) : List ℕ :=
  let L := (layers nb lo up (width - 1)).reverse
  L.tail.foldl union (L.headD [])

/-- Nodes of a processor's own triangles, `submesh_full` 366. -/
def fullNodes (tris : List Tri) (lo up : ℕ) : List ℕ := unique (flat ((tris.drop lo).take (up - lo)))

/-- Further nodes of its ghosts, `ghost_layer` 552-553. -/
def ghostNodes (tris : List Tri) (lo up : ℕ) (ghosts : List ℕ) : List ℕ :=
  setdiff (unique (flat (ghosts.map (fun g => tris.getD g (0, 0, 0))))) (fullNodes tris lo up)

/-- `full_boundary`, `submesh_full` 346-350. -/
def fullBoundary (boundary : BDict) (lo up : ℕ) : BDict := boundary.filter (fun b => decide (lo ≤ b.1.1 ∧ b.1.1 < up))

/-- `ghost_bnd_layer`, 640-700: edges of ghosts with no local triangle beyond; a tag of the whole mesh takes precedence. -/
def ghostBoundary (nb : ℕ × ℕ → ℤ) (boundary : BDict) (lo up : ℕ) (ghosts : List ℕ) : BDict :=
  (List.range 3).flatMap (fun e =>
    ((ghosts.filter (fun g => outside lo up (nb (g, e)))).filter
      (fun g => decide (nb (g, e) ∉ ghosts.map (fun x : ℕ => (x : ℤ))))).map
        (fun g => ((g, e), (boundary.lookup (g, e)).getD "ghost")))

/-- `ghost_commun_pattern`, 755-763, with `triangles_per_proc_ranges` of line 868. -/
def ghostCommun (tpp : List ℕ) (ghosts : List ℕ) : List (ℕ × ℕ) :=
  ghosts.map (fun g => (g, searchsorted ((List.range tpp.length).map (fun p => (procSum tpp (p + 1) : ℤ) - 1)) g))

/-- The second loop of `full_commun_pattern`, 813-825: processors that hold a ghost copy, by owner and global number. -/
def fullCommun (nProcs : ℕ) (gc : ℕ → List (ℕ × ℕ)) : ℕ × ℕ → List ℕ :=
  (List.range nProcs).foldl (fun f p => (gc p).foldl (fun f g => Function.update f (g.2, g.1) (f (g.2, g.1) ++ [p])) f)
    (fun _ => [])

/-! ## Local numbering -/

/-- `tri_map`, `build_local_mesh` 1216-1225. -/
def triMap (lo up : ℕ) (ghosts : List ℕ) : List ℤ :=
  let nGlobal := ghosts.foldl max up
  let a := (List.range (nGlobal + 1)).map (fun i => if lo ≤ i ∧ i < up then (i : ℤ) - lo else -1)
  ghosts.zipIdx.foldl (fun a g => a.set g.1 ((g.2 : ℤ) + up - lo)) a

/-- `node_map`, `build_local_GA` 1079-1089. -/
def nodeMap (nodes : List ℕ) : List ℤ :=
  nodes.zipIdx.foldl (fun a n => a.set n.1 (n.2 : ℤ)) (List.replicate (nodes.foldl max 0 + 1) (-1))

/-- Entry of such a map as a local number. -/
def at' (map : List ℤ) (i : ℕ) : ℕ := (map.getD i (-1)).toNat

/-- `extract_l2g_map`, 1643-1663. -/
def l2g (map : List ℤ) : List ℕ :=
  let known := map.zipIdx.filter (fun x => decide (x.1 > -1))
  known.foldl (fun a x => a.set x.1.toNat x.2) (List.replicate known.length 0)

/-- Rows of a quantity given to processor `p`, `submesh_quantities` 932-970 and `build_local_mesh` 1237-1243: own triangles, then ghosts. -/
def localRows {α : Type*} (d : Division) (ghosts : List ℕ) (p : ℕ) (q : ℕ → α) : List α :=
  let r := reorder d.order q
  (fullIds (procSum d.tpp p) (procSum d.tpp (p + 1))).map r ++ ghosts.map r

/-- Everything a processor gets. -/
structure Local where
  /-- number of own triangles -/
  nFull : ℕ
  /-- global numbers of the nodes, in local order: coordinates are taken from there -/
  nodes : List ℕ
  tris : List Tri
  boundary : BDict
  /-- numbers in the serial domain of the local triangles, and of the nodes -/
  triL2g : List ℕ
  nodeL2g : List ℕ
  /-- the rows (numbers of the serial domain) of every quantity handed over, in this order -/
  rows : List ℕ
  /-- local and global number of the ghosts to be received from a processor -/
  ghostRecv : ℕ → List (ℕ × ℕ)
  /-- local and global number of the own triangles to be sent to a processor -/
  fullSend : ℕ → List (ℕ × ℕ)

/-- `ghost_recv`, `build_local_commun` 1137-1147. -/
def ghostRecv (map : List ℤ) (gc : List (ℕ × ℕ)) (c : ℕ) : List (ℕ × ℕ) :=
  (((sortCols gc).filter (fun x => decide (x.2 = c))).map Prod.fst).map (fun g => (at' map g, g))

/-- `full_send`, 1153-1170; `fc` lists the dictionary `full_commun[p]`. -/
def fullSend (map : List ℤ) (fc : List (ℕ × List ℕ)) (c : ℕ) : List (ℕ × ℕ) :=
  let tmp := fc.flatMap (fun x => (x.2.filter (fun n => decide (n = c))).map (fun _ => (x.1, at' map x.1)))
  (sortCols tmp).map (fun x => (x.2, x.1))

/-- `extract_submesh` and `build_local_mesh` for processor `p`; `m` is the mesh of `build_submesh`, `ghosts` the ghost triangles
of every processor. -/
def localOf (d : Division) (m : MeshData) (ghosts : ℕ → List ℕ) (p : ℕ) : Local :=
  let lo := procSum d.tpp p
  let up := procSum d.tpp (p + 1)
  let gs := ghosts p
  let nodes := fullNodes d.tris lo up ++ ghostNodes d.tris lo up gs
  let triangles := (d.tris.drop lo).take (up - lo) ++ gs.map (fun g => d.tris.getD g (0, 0, 0))
  let boundaries := (ghostBoundary m.enum.neighbours m.boundary lo up gs).foldl (fun b x => dictSet b x.1 x.2)
    (fullBoundary m.boundary lo up)
  let map := triMap lo up gs
  let nmap := nodeMap nodes
  let commun := fullCommun d.tpp.length (fun q => ghostCommun d.tpp (ghosts q))
  { nFull := up - lo
    nodes := nodes
    tris := triangles.map (fun t => (at' nmap t.1, at' nmap t.2.1, at' nmap t.2.2))
    boundary := boundaries.foldl (fun b x => dictSet b (at' map x.1.1, x.1.2) x.2) []
    triL2g := (l2g map).map (fun g => d.order.getD g 0)
    nodeL2g := l2g nmap
    rows := localRows d gs p (fun t => t)
    ghostRecv := ghostRecv map (ghostCommun d.tpp gs)
    fullSend := fullSend map ((fullIds lo up).map (fun i => (i, commun (p, i)))) }

/-- Ghost triangles of processor `p`, `submesh_ghost` 870-881. -/
def ghostsOf (d : Division) (m : MeshData) (width p : ℕ) : List ℕ :=
  ghostIds m.enum.neighbours (procSum d.tpp p) (procSum d.tpp (p + 1)) width

/-- `Sequential_distribute.distribute` and `extract_submesh`: the parts for all processors. -/
def distribute (nProcs width : ℕ) (epart : List ℕ) (tris : List Tri) (boundary : BDict) : Except Err (List Local) :=
  match divide nProcs epart tris boundary with
  | .error e => .error e
  | .ok d =>
    match buildMesh d.tris d.boundary with
    | .error e => .error (.mesh e)
    | .ok m => .ok ((List.range nProcs).map (localOf d m (ghostsOf d m width)))

/-! ## Communication -/

/-- `communicate_ghosts_non_blocking`, 155-250, on all processors: all send buffers are filled, then messages are exchanged and
written to the ghosts. `u p k` is the value of local triangle `k` on processor `p`. -/
def exchange {α : Type*} (parts : List Local) (u : ℕ → ℕ → α) : ℕ → ℕ → α :=
  let part := fun p => parts[p]?
  let out := fun p q => match part p with
    | some a => (a.fullSend q).map (fun x => u p x.1)
    | none => []
  fun p => match part p with
    | some a => (List.range parts.length).foldl (fun v q => put v ((a.ghostRecv q).map Prod.fst) (out q p)) (u p)
    | none => u p

/-- `communicate_flux_timestep`, 35-86: `Allreduce` with `MPI.MIN`; a fixed flux timestep is used as it is. -/
def commonStep {K : Type*} [LinearOrder K] (fixed : Option K) (first : K) (rest : List K) : K :=
  match fixed with
  | some f => f
  | none => rest.foldl min first

end Verif.Par
