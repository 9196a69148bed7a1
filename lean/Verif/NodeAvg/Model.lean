import Mathlib.Algebra.Field.Basic
import Mathlib.Algebra.Order.Field.Basic
import Mathlib.Data.List.Sort
import Mathlib.Logic.Function.Basic

/-!
# Model of the inverted triangle structure and of node averaging

Sources
* `/repo/anuga/abstract_2d_finite_volumes/general_mesh.py` 807-842 (`build_inverted_triangle_structure`)
* `/repo/anuga/abstract_2d_finite_volumes/quantity.c` 821-943 (`_average_vertex_values`, `_average_centroid_values`,
  `_set_vertex_values_c`)
* `/repo/anuga/abstract_2d_finite_volumes/quantity.py` 2085-2236 (`set_vertex_values`, `smooth_vertex_values`,
  `get_vertex_values` with `smooth=True`)

A corner is numbered `3*triangle + vertex`; `flat` is `triangles.flat`, so `flat[c]` is the node of corner `c`.
Simplifications: exact field arithmetic; array reads outside bounds return a default (the theorems show none happen);
writes are recorded so that out-of-bounds writes are visible.
-/

namespace Verif.NodeAvg

variable {K : Type*} [Field K]

/-- `num.bincount(triangles.flat)` padded with zeros: `number_of_triangles_per_node[v]`, `general_mesh.py` 807-820. -/
def perNode (flat : List ℕ) (v : ℕ) : ℕ := flat.count v

/-- Node of a corner. -/
def nodeOf (flat : List ℕ) (c : ℕ) : ℕ := flat.getD c 0

/-- `num.argsort(triangles.flat)`, `general_mesh.py` 836. The sort used is not stable, so any ordering of the corners by
non-decreasing node number is allowed. -/
structure IsArgsort (flat vvi : List ℕ) : Prop where
  perm : vvi.Perm (List.range flat.length)
  sorted : vvi.Pairwise (fun c d => nodeOf flat c ≤ nodeOf flat d)

/-- `node_index[v]` = `cumsum(number_of_triangles_per_node)` shifted by one, `general_mesh.py` 845-846. -/
def nodeIndex (flat : List ℕ) : ℕ → ℕ
  | 0 => 0
  | v + 1 => nodeIndex flat v + perNode flat v

/-- Loop state of `_average_vertex_values`; `writes` are the assignments `A[node] = value` in order, latest first. -/
structure AvgState (K : Type*) where
  k : ℕ
  cur : ℕ
  total : K
  writes : List (ℕ × K)

/-- One iteration with `index = vertex_value_indices[i]`, `quantity.c` 835-867. -/
def avgStep (cnt : ℕ → ℕ) (val : ℕ → K) (s : AvgState K) (index : ℕ) : AvgState K :=
  if cnt s.cur = 0 then
    { s with total := 0, k := 0, cur := s.cur + 1 }
  else
    let k := s.k + 1
    let total := s.total + val index
    if cnt s.cur = k then
      { k := 0, cur := s.cur + 1, total := 0, writes := (s.cur, total / (k : K)) :: s.writes }
    else { s with k := k, total := total }

def avgInit : AvgState K := { k := 0, cur := 0, total := 0, writes := [] }

/-- `_average_vertex_values`: all writes to `A`. -/
def averageWrites (flat vvi : List ℕ) (val : ℕ → K) : List (ℕ × K) :=
  (vvi.foldl (avgStep (perNode flat) val) avgInit).writes

/-- Contents of `A` (initially zero) after the writes. -/
def applyWrites (w : List (ℕ × K)) (v : ℕ) : K := (w.lookup v).getD 0

/-- Smooth node values by vertex averaging: `get_vertex_values(smooth=True)`. -/
def nodeAverage (flat vvi : List ℕ) (val : ℕ → K) (v : ℕ) : K := applyWrites (averageWrites flat vvi val) v

/-- `_average_centroid_values`, `quantity.c` 872-914: `volume_id = index / 3`. -/
def nodeAverageCentroid (flat vvi : List ℕ) (cent : ℕ → K) (v : ℕ) : K :=
  nodeAverage flat vvi (fun c => cent (c / 3)) v

/-- Inner loop of `_set_vertex_values_c` over `j` for one node, `quantity.c` 938-942. -/
def setNode (vvi : List ℕ) (start cnt : ℕ) (a : K) (vals : ℕ → K) : ℕ → K :=
  (List.range cnt).foldl (fun vals j => Function.update vals (vvi.getD (start + j) 0) a) vals

/-- `_set_vertex_values_c`, `quantity.c` 922-948: pairs `(vertices[i], A[i])`. -/
def setVertexValues (flat vvi : List ℕ) (pairs : List (ℕ × K)) (vals : ℕ → K) : ℕ → K :=
  pairs.foldl (fun vals p => setNode vvi (nodeIndex flat p.1) (perNode flat p.1) p.2 vals) vals

/-- `smooth_vertex_values`, `quantity.py` 2146-2151, vertex averaging, all `n` nodes. -/
def smooth (flat vvi : List ℕ) (n : ℕ) (vals : ℕ → K) : ℕ → K :=
  setVertexValues flat vvi ((List.range n).map (fun v => (v, nodeAverage flat vvi vals v))) vals

end Verif.NodeAvg
