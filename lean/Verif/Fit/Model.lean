import Verif.Quad.Model
import Verif.Sparse.Model

/-!
# Model of fitting a smooth surface to points

Sources
* `/repo/anuga/fit_interpolate/fitsmooth.c` 28-139 (`_build_smoothing_matrix`), 179-243 (`_build_matrix_AtA_Atz_points`), 246-257
  (`_combine_partial_AtA_Atz`);
* `/repo/anuga/fit_interpolate/fitsmooth_ext.pyx` 253-274 (`build_matrix_B`);
* `/repo/anuga/fit_interpolate/fit.py` 60-375 (`Fit`).

Simplifications: exact field (`sqrt` a parameter); one attribute per point; the points are taken in order (the C loop is parallel, its updates
are made one point at a time); reading points from files is left out; the linear solver is the subject of C23, here a fit delivers the system
that is given to it.
-/

namespace Verif.Fit

open Verif.Polygon (Pt)
open Verif.Sparse (Dok Key bump)

variable {K : Type*} [Field K] [LinearOrder K]

/-- One triangle: nodes, corners, area. -/
structure Elem (K : Type*) where
  js : ℕ × ℕ × ℕ
  a : Pt K
  b : Pt K
  c : Pt K
  area : K

/-- What `FitInterpolate.__init__` keeps. -/
structure Mesh (K : Type*) where
  nodes : ℕ
  elems : List (Elem K)
  tree : Verif.Quad.Tree K

/-- Gradients `(a0, b0), (a1, b1), (a2, b2)` of the three hat functions, `fitsmooth.c` 68-85. -/
def grads (e : Elem K) : (K × K) × (K × K) × (K × K) :=
  let det := (e.c.y - e.a.y) * (e.b.x - e.a.x) - (e.b.y - e.a.y) * (e.c.x - e.a.x)
  (((((e.c.y - e.a.y) * (0 - 1) - (e.b.y - e.a.y) * (0 - 1)) / det), (((e.b.x - e.a.x) * (0 - 1) - (e.c.x - e.a.x) * (0 - 1)) / det)),
    ((((e.c.y - e.a.y) * (1 - 0) - (e.b.y - e.a.y) * (0 - 0)) / det), (((e.b.x - e.a.x) * (0 - 0) - (e.c.x - e.a.x) * (1 - 0)) / det)),
    ((((e.c.y - e.a.y) * (0 - 0) - (e.b.y - e.a.y) * (1 - 0)) / det), (((e.b.x - e.a.x) * (1 - 0) - (e.c.x - e.a.x) * (0 - 0)) / det)))

/-- The nine additions for one triangle, `fitsmooth.c` 87-134. -/
def smoothEntries (e : Elem K) : List (Key × K) :=
  let g := grads e
  let a0 := g.1.1
  let b0 := g.1.2
  let a1 := g.2.1.1
  let b1 := g.2.1.2
  let a2 := g.2.2.1
  let b2 := g.2.2.2
  let v0 := e.js.1
  let v1 := e.js.2.1
  let v2 := e.js.2.2
  let e01 := (a0 * a1 + b0 * b1) * e.area
  let e12 := (a1 * a2 + b1 * b2) * e.area
  let e20 := (a2 * a0 + b2 * b0) * e.area
  [((v0, v0), (a0 * a0 + b0 * b0) * e.area), ((v1, v1), (a1 * a1 + b1 * b1) * e.area), ((v2, v2), (a2 * a2 + b2 * b2) * e.area),
    ((v0, v1), e01), ((v1, v0), e01), ((v1, v2), e12), ((v2, v1), e12), ((v2, v0), e20), ((v0, v2), e20)]

/-- `_build_smoothing_matrix`. -/
def smoothing (m : Mesh K) : Dok K := (m.elems.flatMap smoothEntries).foldl (fun d s => d.addEntry s.1 s.2) Dok.make

/-- Nodes of triangle number `k`. -/
def Mesh.nodesOf (m : Mesh K) (k : ℕ) : ℕ × ℕ × ℕ := ((m.elems[k]?).map Elem.js).getD (0, 0, 0)

/-- The nine additions to `AtA` for one point, `fitsmooth.c` 221-234. -/
def pointEntries (js : ℕ × ℕ × ℕ) (w : K × K × K) : List (Key × K) :=
  [((js.1, js.1), w.1 * w.1), ((js.1, js.2.1), w.1 * w.2.1), ((js.1, js.2.2), w.1 * w.2.2),
    ((js.2.1, js.1), w.2.1 * w.1), ((js.2.1, js.2.1), w.2.1 * w.2.1), ((js.2.1, js.2.2), w.2.1 * w.2.2),
    ((js.2.2, js.1), w.2.2 * w.1), ((js.2.2, js.2.1), w.2.2 * w.2.1), ((js.2.2, js.2.2), w.2.2 * w.2.2)]

/-- One pass of the loop over the points, `fitsmooth.c` 205-240. -/
def addPoint (sq : K → K) (m : Mesh K) (s : Dok K × List K) (d : Pt K × K) : Dok K × List K :=
  match m.tree.search d.1 with
  | none => s
  | some t =>
    let w := Verif.Quad.sigma sq t d.1
    let js := m.nodesOf t.index
    ((pointEntries js w).foldl (fun d e => d.addEntry e.1 e.2) s.1,
      bump (bump (bump s.2 js.1 (w.1 * d.2)) js.2.1 (w.2.1 * d.2)) js.2.2 (w.2.2 * d.2))

/-- `_build_matrix_AtA_Atz_points`, `fitsmooth.c` 179-243. -/
def buildPoints (sq : K → K) (m : Mesh K) (data : List (Pt K × K)) : Dok K × List K :=
  data.foldl (addPoint sq m) (Dok.make, List.replicate m.nodes 0)

/-- The second matrix after `add_sparse_dok`, `sparse_dok.c` 179-185: entries present in both become zero. -/
def zeroCommon (a b : Dok K) : Dok K :=
  ⟨b.table.map fun e => (e.1, if (a.table.lookup e.1).isSome then 0 else e.2), b.numEntries, b.numRows⟩

/-- The `Fit` object. -/
structure Obj (K : Type*) where
  mesh : Mesh K
  alpha : K
  D : Dok K
  AtA : Option (Dok K)
  Atz : List K
  count : ℕ

/-- `Fit(...)`, `fit.py` 60-132. -/
def Obj.new (m : Mesh K) (alpha : K) : Obj K := ⟨m, alpha, smoothing m, none, [], 0⟩

/-- `_build_matrix_AtA_Atz` / `build_fit_subset`, `fit.py` 197-266. -/
def Obj.addBlock (sq : K → K) (o : Obj K) (data : List (Pt K × K)) : Obj K :=
  let r := buildPoints sq o.mesh data
  match o.AtA with
  | none => { o with AtA := some r.1, Atz := r.2, count := o.count + data.length }
  | some A => { o with AtA := some (A.combine 1 r.1 1), Atz := List.zipWith (· + ·) o.Atz r.2, count := o.count + data.length }

/-- Exceptions of `fit`. -/
inductive FErr where
  | noMatrix
  | tooFewPoints
  deriving DecidableEq, Repr

/-- `fit`, `fit.py` 268-375, up to the solver: new object, and matrix and right hand side of the system to be solved. `build_matrix_B` overwrites
the smoothing matrix by the result (`fitsmooth_ext.pyx` 263). -/
def Obj.fit (sq : K → K) (o : Obj K) (data : Option (List (Pt K × K))) : Obj K × Except FErr (Dok K × List K) :=
  let o := match data with
    | none => o
    | some d => o.addBlock sq d
  match o.AtA with
  | none => (o, .error .noMatrix)
  | some A =>
    if o.count < o.mesh.nodes ∧ o.alpha = 0 then (o, .error .tooFewPoints)
    else
      let B := o.D.combine o.alpha A 1
      ({ o with D := B, AtA := some (zeroCommon o.D A) }, .ok (B, o.Atz))

end Verif.Fit
