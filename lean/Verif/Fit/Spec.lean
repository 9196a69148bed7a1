import Verif.Fit.Model
import Verif.Quad.PropsTree
import Verif.Sparse.PropsDok
import Mathlib.Logic.Relation

/-! # Vocabulary for fitting -/

namespace Verif.Fit

open Verif.Polygon (Pt Flat)
open Verif.Quad (Tri)
open Verif.Sparse (DExpr Key look)

variable {K : Type*} [Field K] [LinearOrder K]

/-- The tree holds the triangles of the mesh; their nodes exist; none is degenerate and areas are positive. -/
structure Fits (m : Mesh K) : Prop where
  tree : ∃ fuel root, Verif.Quad.buildTree fuel (.new root) (m.elems.mapIdx fun k e => ⟨k, e.a, e.b, e.c⟩) = some m.tree
  nodes : ∀ e ∈ m.elems, e.js.1 < m.nodes ∧ e.js.2.1 < m.nodes ∧ e.js.2.2 < m.nodes
  proper : ∀ e ∈ m.elems, ¬ Flat e.a e.b e.c
  area : ∀ e ∈ m.elems, 0 < e.area

/-- Coefficients of the plane `al + be x + ga y` taking the values `fa`, `fb`, `fc` at `a`, `b`, `c` (`plane_spec`). -/
def plane (a b c : Pt K) (fa fb fc : K) : K × K × K :=
  let d := (b.x - a.x) * (c.y - a.y) - (c.x - a.x) * (b.y - a.y)
  let be := ((fb - fa) * (c.y - a.y) - (fc - fa) * (b.y - a.y)) / d
  let ga := ((b.x - a.x) * (fc - fa) - (c.x - a.x) * (fb - fa)) / d
  (fa - be * a.x - ga * a.y, be, ga)

/-- The plane over a triangle when the nodes have the values `f`. -/
def Elem.plane (e : Elem K) (f : List K) : K × K × K :=
  Verif.Fit.plane e.a e.b e.c (f.getD e.js.1 0) (f.getD e.js.2.1 0) (f.getD e.js.2.2 0)

/-- Squared distance of the surface from the points that are found in the mesh. -/
def misfit (m : Mesh K) (data : List (Pt K × K)) (f : List K) : K :=
  (data.map fun d => match m.tree.search d.1 with
    | none => 0
    | some t => match m.elems[t.index]? with
      | none => 0
      | some e => ((e.plane f).1 + (e.plane f).2.1 * d.1.x + (e.plane f).2.2 * d.1.y - d.2) ^ 2).sum

/-- Integral of the squared slope of the surface. -/
def roughness (m : Mesh K) (f : List K) : K :=
  (m.elems.map fun e => e.area * ((e.plane f).2.1 ^ 2 + (e.plane f).2.2 ^ 2)).sum

/-- What a smoothed least squares fit makes as small as possible. -/
def cost (m : Mesh K) (alpha : K) (data : List (Pt K × K)) (f : List K) : K := misfit m data f + alpha * roughness m f

/-- `x` solves the system with matrix `B` (as a table) and right hand side `b`. -/
def Solves (n : ℕ) (B : List (Key × K)) (b x : List K) : Prop :=
  ∀ i < n, ∑ j ∈ Finset.range n, look B (i, j) * x.getD j 0 = b.getD i 0

/-- Two nodes of one triangle. -/
def Mesh.Adjacent (m : Mesh K) (i j : ℕ) : Prop :=
  ∃ e ∈ m.elems, (i = e.js.1 ∨ i = e.js.2.1 ∨ i = e.js.2.2) ∧ (j = e.js.1 ∨ j = e.js.2.1 ∨ j = e.js.2.2)

/-- Any two nodes are linked through triangles. -/
def Mesh.Connected (m : Mesh K) : Prop := ∀ i < m.nodes, ∀ j < m.nodes, Relation.ReflTransGen m.Adjacent i j

/-! ### How the matrices are accumulated (C52) -/

def addAll (es : List (Key × K)) (d : DExpr K) : DExpr K := es.foldl (fun d s => .add d s.1 s.2) d

def smoothExpr (m : Mesh K) : DExpr K := addAll (m.elems.flatMap smoothEntries) .make

def entriesAt (sq : K → K) (m : Mesh K) (d : Pt K × K) : List (Key × K) :=
  match m.tree.search d.1 with
  | none => []
  | some t => pointEntries (m.nodesOf t.index) (Verif.Quad.sigma sq t d.1)

def blockExpr (sq : K → K) (m : Mesh K) (data : List (Pt K × K)) : DExpr K := addAll (data.flatMap (entriesAt sq m)) .make

/-- All blocks: the first, then the others combined with it. -/
def feedExpr (sq : K → K) (m : Mesh K) (first : List (Pt K × K)) (rest : List (List (Pt K × K))) : DExpr K :=
  rest.foldl (fun d b => .combine d 1 (blockExpr sq m b) 1) (blockExpr sq m first)

def fitExpr (sq : K → K) (m : Mesh K) (alpha : K) (first : List (Pt K × K)) (rest : List (List (Pt K × K))) : DExpr K :=
  .combine (smoothExpr m) alpha (feedExpr sq m first rest) 1

end Verif.Fit
