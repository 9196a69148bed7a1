import Verif.Wall.Model

/-! # Vocabulary for river walls -/

namespace Verif.Wall

variable {K : Type*} [Field K] [LinearOrder K]

/-- Square root. -/
def IsSqrt (sq : K → K) : Prop := ∀ x, 0 ≤ x → 0 ≤ sq x ∧ sq x * sq x = x

/-- `a` and `b` are corners `j` and `j + 1` of wall `i`. -/
def Segment (walls : List (String × List (Pt3 K))) (i j : ℕ) (a b : Pt3 K) : Prop :=
  ∃ w, walls[i]? = some w ∧ w.2[j]? = some a ∧ w.2[j + 1]? = some b

/-- Squared length in the plane. -/
def len2 (a b : Pt3 K) : K := (b.1 - a.1) ^ 2 + (b.2.1 - a.2.1) ^ 2

/-- The point is less than `tol` from the line through `a` and `b`, and its projection passes the ends by less than `tol`: coordinates along and across the
segment. Segments shorter than `tol` are ignored. -/
def Strip (tol : K) (a b : Pt3 K) (p : K × K) : Prop :=
  ∃ L c d, 0 < L ∧ tol ≤ L ∧ L * L = len2 a b ∧ L * (p.1 - a.1) = c * (b.1 - a.1) - d * (b.2.1 - a.2.1) ∧
    L * (p.2 - a.2.1) = c * (b.2.1 - a.2.1) + d * (b.1 - a.1) ∧ |d| < tol ∧ -tol < c ∧ c < L + tol

/-- Squared distance from the point of the segment at the fraction `t`. -/
def dist2 (a b : Pt3 K) (p : K × K) (t : K) : K := (p.1 - (a.1 + t * (b.1 - a.1))) ^ 2 + (p.2 - (a.2.1 + t * (b.2.1 - a.2.1))) ^ 2

/-- `z` is the elevation of the wall where it is nearest to the point. -/
def Crest (a b : Pt3 K) (p : K × K) (z : K) : Prop :=
  ∃ t, 0 ≤ t ∧ t ≤ 1 ∧ (∀ r, 0 ≤ r → r ≤ 1 → dist2 a b p t ≤ dist2 a b p r) ∧ z = a.2.2 + t * (b.2.2 - a.2.2)

/-- Midpoint of an edge in absolute coordinates. -/
def Dom.place (D : Dom K) (e : ℕ) : K × K := ((D.mid e).1 + D.xll, (D.mid e).2 + D.yll)

/-- Some wall runs along the edge. -/
def Walled (D : Dom K) (tol : K) (walls : List (String × List (Pt3 K))) (e : ℕ) : Prop :=
  ∃ i j a b, Segment walls i j a b ∧ Strip tol a b (D.place e)

/-- Segments are in order of walls and, in a wall, of corners. -/
def Later (i j i' j' : ℕ) : Prop := i < i' ∨ i = i' ∧ j < j'

/-- Standard values. -/
def Standard (v : String) (x : K) : Prop :=
  v = "Qfactor" ∧ x = 1 ∨ v = "s1" ∧ x = 9 / 10 ∨ v = "s2" ∧ x = 19 / 20 ∨ v = "h1" ∧ x = 1 ∨ v = "h2" ∧ x = 3 / 2

/-- The parameter of a wall: the one given for it, else the given default, else the standard. -/
def Value (par : List (String × List (String × K))) (dflt : List (String × K)) (name v : String) (x : K) : Prop :=
  (∃ d, par.lookup name = some d ∧ d.lookup v = some x) ∨
  (∀ d, par.lookup name = some d → d.lookup v = none) ∧ (dflt.lookup v = some x ∨ dflt.lookup v = none ∧ Standard v x)

/-- Edges with the same midpoint have the same ends, and no edge is a point. (Rows of `vert` past the last triangle may repeat it.) -/
def Dom.Proper (D : Dom K) : Prop :=
  (∀ e, D.vert (ends e).1 ≠ D.vert (ends e).2) ∧
  ∀ e f, D.mid e = D.mid f → ∀ p, (D.vert (ends e).1 = p ∨ D.vert (ends e).2 = p) → (D.vert (ends f).1 = p ∨ D.vert (ends f).2 = p)

/-- The place is an end of the edge. -/
def Dom.End (D : Dom K) (e : ℕ) (p : K × K) : Prop := D.vert (ends e).1 = p ∨ D.vert (ends e).2 = p

/-- The place belongs to a boundary edge. -/
def Dom.Bdry (D : Dom K) (p : K × K) : Prop := ∃ k i, (k, i) ∈ D.boundary ∧ D.End (3 * k + i) p

/-- An end of exactly one of the edges (up to the two sides of an edge), not on the boundary. -/
def Dom.Loose (D : Dom K) (E : ℕ → Prop) (p : K × K) : Prop :=
  ¬ D.Bdry p ∧ ∃ e, E e ∧ D.End e p ∧ ∀ f, E f → D.End f p → D.mid f = D.mid e

end Verif.Wall
