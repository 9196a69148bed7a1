import Verif.Polygon.Model
import Verif.Mesh.Spec

/-!
# Vocabulary for generated meshes (independent of the model)

A mesh is a list of points, a list of triangles (triples of point numbers) and a list of tagged edges.
-/

namespace Verif.Factory

open Verif.Polygon (Pt)
open Verif.Mesh

variable {K : Type*} [Field K] [LinearOrder K]

/-- Twice the signed area, positive when `A B C` turns left. -/
def orient (A B C : Pt K) : K := (B.x - A.x) * (C.y - A.y) - (B.y - A.y) * (C.x - A.x)

/-- Triangle number `k` has the corners `A B C`. -/
def IsTri (points : List (Pt K)) (elems : List (ℕ × ℕ × ℕ)) (k : ℕ) (A B C : Pt K) : Prop :=
  ∃ a b c, elems[k]? = some (a, b, c) ∧ points[a]? = some A ∧ points[b]? = some B ∧ points[c]? = some C

/-- Every triangle has corners among the points, turns left and has the given area. -/
def Uniform (points : List (Pt K)) (elems : List (ℕ × ℕ × ℕ)) (area : K) : Prop :=
  ∀ k < elems.length, ∃ A B C, IsTri points elems k A B C ∧ 0 < orient A B C ∧ orient A B C / 2 = area

/-- In the closed triangle. -/
def Within (A B C P : Pt K) : Prop := 0 ≤ orient A B P ∧ 0 ≤ orient B C P ∧ 0 ≤ orient C A P

/-- In the open triangle. -/
def StrictlyWithin (A B C P : Pt K) : Prop := 0 < orient A B P ∧ 0 < orient B C P ∧ 0 < orient C A P

/-- In the rectangle with lower left corner `o`. -/
def InRect (o : K × K) (len1 len2 : K) (P : Pt K) : Prop := o.1 ≤ P.x ∧ P.x ≤ o.1 + len1 ∧ o.2 ≤ P.y ∧ P.y ≤ o.2 + len2

/-- The triangles together are the rectangle, and no two of them overlap. -/
def Tiles (points : List (Pt K)) (elems : List (ℕ × ℕ × ℕ)) (o : K × K) (len1 len2 : K) : Prop :=
  (∀ P, InRect o len1 len2 P ↔ ∃ k A B C, IsTri points elems k A B C ∧ Within A B C P) ∧
    ∀ k A B C l A' B' C' P, IsTri points elems k A B C → IsTri points elems l A' B' C' → StrictlyWithin A B C P → StrictlyWithin A' B' C' P → k = l

/-- The point lies on the side of the rectangle with this name. -/
def OnSide (o : K × K) (len1 len2 : K) (tag : String) (P : Pt K) : Prop :=
  (tag = "left" ∧ P.x = o.1) ∨ (tag = "right" ∧ P.x = o.1 + len1) ∨ (tag = "bottom" ∧ P.y = o.2) ∨ (tag = "top" ∧ P.y = o.2 + len2)

/-- The tagged edges are exactly the edges with a triangle on one side only, each under the name of the side it lies on, none twice. -/
def Tagged (points : List (Pt K)) (elems : List (ℕ × ℕ × ℕ)) (boundary : List ((ℕ × ℕ) × String)) (o : K × K) (len1 len2 : K) : Prop :=
  (boundary.map Prod.fst).Nodup ∧
    ∀ k e tag, ((k, e), tag) ∈ boundary ↔
      (¬ ∃ l j, Across elems k e l j) ∧
        ∃ a b A B, DirEdge elems k e a b ∧ points[a]? = some A ∧ points[b]? = some B ∧ OnSide o len1 len2 tag A ∧ OnSide o len1 len2 tag B

/-- Every point is the corner of some triangle, and no two points coincide. -/
def PointsUsed (points : List (Pt K)) (elems : List (ℕ × ℕ × ℕ)) : Prop :=
  points.Nodup ∧ ∀ v < points.length, ∃ (k a b c : ℕ), elems[k]? = some (a, b, c) ∧ (v = a ∨ v = b ∨ v = c)

/-- Triangle `k` moved by `d` along the first axis is triangle `l`, corner by corner. -/
def Shifted (points : List (Pt K)) (elems : List (ℕ × ℕ × ℕ)) (d : K) (k l : ℕ) : Prop :=
  ∃ A B C A' B' C' : Pt K, IsTri points elems k A B C ∧ IsTri points elems l A' B' C' ∧
    A' = ⟨A.x + d, A.y⟩ ∧ B' = ⟨B.x + d, B.y⟩ ∧ C' = ⟨C.x + d, C.y⟩

end Verif.Factory
