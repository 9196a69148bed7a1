import Mathlib.Data.Nat.Basic

/-!
# Vocabulary for mesh connectivity (independent of the model)
-/

namespace Verif.Mesh

/-- Edge `e` (opposite corner `e`) of triangle number `k` runs from node `a` to node `b`. -/
def DirEdge (tris : List (ℕ × ℕ × ℕ)) (k e a b : ℕ) : Prop :=
  ∃ n0 n1 n2, tris[k]? = some (n0, n1, n2) ∧
    ((e = 0 ∧ a = n1 ∧ b = n2) ∨ (e = 1 ∧ a = n2 ∧ b = n0) ∨ (e = 2 ∧ a = n0 ∧ b = n1))

/-- No directed edge is used twice: the mesh is conforming and consistently oriented. -/
def Conforming (tris : List (ℕ × ℕ × ℕ)) : Prop :=
  ∀ k e k' e' a b, DirEdge tris k e a b → DirEdge tris k' e' a b → k = k' ∧ e = e'

/-- Triangle `l` lies on the other side of edge `e` of triangle `k`, across its own edge `j`. -/
def Across (tris : List (ℕ × ℕ × ℕ)) (k e l j : ℕ) : Prop :=
  ∃ a b, DirEdge tris k e a b ∧ DirEdge tris l j b a

end Verif.Mesh
