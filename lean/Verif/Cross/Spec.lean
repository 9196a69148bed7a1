import Verif.Cross.Model

/-! # Vocabulary for cross sections -/

namespace Verif.Cross

open Verif.Polygon

variable {K : Type*} [Field K] [LinearOrder K]

/-- The closed triangle. -/
def Tri.Has (T : Tri K) (p : Pt K) : Prop := InClosedTri p T.a T.b T.c

/-- The open triangle. -/
def Tri.Inner (T : Tri K) (p : Pt K) : Prop := InTri p T.a T.b T.c

/-- Corners listed anticlockwise. -/
def Tri.Ccw (T : Tri K) : Prop := 0 < (T.b.x - T.a.x) * (T.c.y - T.a.y) - (T.b.y - T.a.y) * (T.c.x - T.a.x)

/-- The point at the fraction `t` of the way from `A` to `B`. -/
def along (A B : Pt K) (t : K) : Pt K := ⟨A.x + t * (B.x - A.x), A.y + t * (B.y - A.y)⟩

/-- The line from `A` to `B` runs through the triangle from fraction `s` to fraction `t`. -/
def Chord (A B : Pt K) (T : Tri K) (s t : K) : Prop :=
  0 ≤ s ∧ s < t ∧ t ≤ 1 ∧ ∀ r, 0 ≤ r → r ≤ 1 → (T.Has (along A B r) ↔ s ≤ r ∧ r ≤ t)

/-- An edge, in either direction. -/
def Tri.Edge (T : Tri K) (U V : Pt K) : Prop := (U, V) ∈ T.sides ∨ (V, U) ∈ T.sides

/-- Triangles that share more than a point share an edge containing it all. -/
def Conform (Ts : List (Tri K)) : Prop :=
  ∀ (i j : ℕ) (T T' : Tri K), i ≠ j → Ts[i]? = some T → Ts[j]? = some T' → ∀ p q, p ≠ q → T.Has p → T.Has q → T'.Has p → T'.Has q →
    ∃ U V, T.Edge U V ∧ T'.Edge U V ∧ OnSeg p U V ∧ OnSeg q U V

/-- Every point of the line is in some triangle. -/
def Covered (Ts : List (Tri K)) (A B : Pt K) : Prop := ∀ p, OnSeg p A B → ∃ T ∈ Ts, T.Has p

/-- No position is within the tolerances of the code without being exact: an edge is parallel to the line or clearly not, on it or clearly not, and ends
are on the other segment or clearly not. -/
structure Sharp (atol : K) (A B U V : Pt K) : Prop where
  cross : turn A B U V = 0 ∨ atol < |turn A B U V|
  offset : turn A B A U = 0 ∨ atol < |turn A B A U|
  endA : OnSeg A U V ∨ ¬ Near margin A U V
  endB : OnSeg B U V ∨ ¬ Near margin B U V
  endU : OnSeg U A B ∨ ¬ Near margin U A B
  endV : OnSeg V A B ∨ ¬ Near margin V A B

/-- The line is in clear position with respect to the triangle. -/
def SharpTri (atol : K) (A B : Pt K) (T : Tri K) : Prop := ∀ e ∈ T.sides, Sharp atol A B e.1 e.2

/-- The line does not begin and end strictly inside one triangle. -/
def Leaves (Ts : List (Tri K)) (A B : Pt K) : Prop := ∀ T ∈ Ts, ¬ (T.Inner A ∧ T.Inner B)

end Verif.Cross
