import Verif.Gen.ModelTags
import Verif.Mesh.Spec

/-! Vocabulary for tags and edges. -/

namespace Verif.Gen

open Verif.Mesh (DirEdge Across)

/-- Edge `e` of triangle `k` lies on a segment, in one direction or the other. -/
def On (tris : List (ℕ × ℕ × ℕ)) (k e : ℕ) (s : ℕ × ℕ) : Prop := DirEdge tris k e s.1 s.2 ∨ DirEdge tris k e s.2 s.1

/-- The last segment with a tag that contains the edge has tag `t`. -/
def LastTag (tris : List (ℕ × ℕ × ℕ)) (segs : List ((ℕ × ℕ) × String)) (k e : ℕ) (t : String) : Prop :=
  ∃ A s B, segs = A ++ (s, t) :: B ∧ t ≠ "" ∧ On tris k e s ∧ ∀ q ∈ B, q.2 ≠ "" → ¬ On tris k e q.1

/-- What is relied on of the mesh generator. `origin j` is the segment of the outline that output segment number `j` is a piece of. -/
structure Faithful (codes : List (Option ℕ)) (tris : List (ℕ × ℕ × ℕ)) (segs : List (ℕ × ℕ)) (markers : List ℕ)
    (origin : ℕ → Option ℕ) : Prop where
  /-- neighbouring triangles have the same orientation and share whole edges -/
  conforming : Mesh.Conforming tris
  /-- one marker for each segment -/
  length : markers.length = segs.length
  /-- origins exist -/
  exists_ : ∀ j i, origin j = some i → i < codes.length
  /-- no two segments on the same edge -/
  once : ∀ (j j' : ℕ) s s' k e, segs[j]? = some s → segs[j']? = some s' → On tris k e s → On tris k e s' → j = j'
  /-- pieces have the marker of their segment, if that is not zero -/
  inherits : ∀ (j i c : ℕ), j < segs.length → origin j = some i → codes[i]? = some (some c) → c ≠ 0 → markers[j]? = some c
  /-- other segments on the boundary have marker one, inside they have zero -/
  zero : ∀ (j : ℕ) s, segs[j]? = some s → (∀ i, origin j = some i → codes[i]? = some (some 0)) →
    ((∃ k e, On tris k e s ∧ ¬ ∃ l f, Across tris k e l f) → markers[j]? = some 1) ∧
    ((¬ ∃ k e, On tris k e s ∧ ¬ ∃ l f, Across tris k e l f) → markers[j]? = some 0)

end Verif.Gen
