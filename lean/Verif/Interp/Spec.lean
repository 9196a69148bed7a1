import Verif.Interp.Model
import Verif.Quad.PropsTree

/-! # Vocabulary for interpolation -/

namespace Verif.Interp

open Verif.Polygon (Pt Flat)
open Verif.Quad (Tri)

variable {K : Type*} [Field K] [LinearOrder K]

/-- The object describes the triangles `ts` with nodes at `pos`: its tree holds them, each has three existing nodes at its corners and is not
degenerate. -/
structure Fits (m : Mesh K) (pos : ℕ → Pt K) (ts : List (Tri K)) : Prop where
  tree : ∃ fuel root, Verif.Quad.buildTree fuel (.new root) ts = some m.tree
  nodes : ∀ t ∈ ts, ∃ a b c, m.tris[t.index]? = some (a, b, c) ∧ a < m.nodes ∧ b < m.nodes ∧ c < m.nodes ∧
    t.a = pos a ∧ t.b = pos b ∧ t.c = pos c
  proper : ∀ t ∈ ts, ¬ Flat t.a t.b t.c

/-- Height at `p` of the plane through the values `fa`, `fb`, `fc` over `a`, `b`, `c`. -/
def PlaneThrough (a b c : Pt K) (fa fb fc : K) (p : Pt K) (v : K) : Prop :=
  ∃ al be ga : K, al + be * a.x + ga * a.y = fa ∧ al + be * b.x + ga * b.y = fb ∧ al + be * c.x + ga * c.y = fc ∧
    v = al + be * p.x + ga * p.y

/-- The value at time `t` of the polygonal line through the points `(T i, V i)`. -/
def LineThrough (T V : List K) (t v : K) : Prop :=
  (∃ i : ℕ, T[i]? = some t ∧ V[i]? = some v) ∨
    ∃ (i : ℕ) (t0 t1 v0 v1 : K), T[i]? = some t0 ∧ T[i + 1]? = some t1 ∧ V[i]? = some v0 ∧ V[i + 1]? = some v1 ∧ t0 < t ∧ t < t1 ∧
      (v - v0) * (t1 - t0) = (v1 - v0) * (t - t0)

end Verif.Interp
