import Verif.Sts.Model
import Verif.FileFn.Spec

/-! # Vocabulary for gauges along a boundary polygon -/

namespace Verif.Sts

open Verif.Polygon (Pt OnSeg Near)
open Verif.FileFn (File Var relTo absTimes)
open Verif.Interp (LineThrough)

variable {K : Type*} [Field K] [LinearOrder K]

/-- Gauge `j` is at the vertex `b` of the polygon, up to 1e-4 of the coordinates (relative to the corner of the file) plus 1e-4. -/
def At (f : File K) (x : List (Pt K)) (b : Pt K) (j : ℕ) : Prop :=
  ∃ g, x[j]? = some g ∧ |g.x - (b.x - f.corner.x)| ≤ (1 + |b.x - f.corner.x|) / 10 ^ 4 ∧ |g.y - (b.y - f.corner.y)| ≤ (1 + |b.y - f.corner.y|) / 10 ^ 4

/-- Gauge `j` gives the values at vertex `i` of the polygon: it is the first one there. -/
def Gives (f : File K) (x poly : List (Pt K)) (i j : ℕ) : Prop :=
  ∃ b, poly[i]? = some b ∧ At f x b j ∧ ∀ k < j, ¬ At f x b k

/-- Vertex `i` of the polygon has a gauge. -/
def Gauged (f : File K) (x poly : List (Pt K)) (i : ℕ) : Prop := ∃ j, Gives f x poly i j

/-- The vertex after `i`, around the polygon. -/
def after (poly : List (Pt K)) (i : ℕ) : ℕ := (i + 1) % poly.length

/-- The vertices with gauges form one stretch of the polygon, which may pass its first vertex but is not all of it: exactly one of them is followed
by a vertex without gauge. -/
def OneStretch (f : File K) (x poly : List (Pt K)) : Prop := ∃! i, Gauged f x poly i ∧ ¬ Gauged f x poly (after poly i)

/-- Side `i` of the polygon runs from one vertex with a gauge to another one; `a`, `b` are its ends. -/
def Side (f : File K) (x poly : List (Pt K)) (i : ℕ) (a b : Pt K) : Prop :=
  Gauged f x poly i ∧ Gauged f x poly (after poly i) ∧ poly[i]? = some a ∧ poly[after poly i]? = some b

/-- `p` is farther from the segment than a millionth of its length. -/
def Off (p a b : Pt K) : Prop :=
  ∀ q, OnSeg q a b → (1 / 10 ^ 6) ^ 2 * ((b.x - a.x) * (b.x - a.x) + (b.y - a.y) * (b.y - a.y)) <
    (p.x - q.x) * (p.x - q.x) + (p.y - q.y) * (p.y - q.y)

/-- The numbers `q` are, for the named quantities, linear in time between the used results, of which number `i` has the value `V v i`. -/
def Series (f : File K) (T : List K) (names : List String) (idx : List ℕ) (V : Var K → ℕ → K) (A : K) (q : List K) : Prop :=
  q.length = names.length ∧ ∀ (n : ℕ) (name : String), names[n]? = some name → ∃ v z, f.vars name = some v ∧ q[n]? = some z ∧
    LineThrough (absTimes T f.starttime idx) (idx.map (V v)) A z

/-- A file of gauges with values in time at all of them. -/
structure Holds (f : File K) (names : List String) (x : List (Pt K)) (T : List K) (vals : List (Var K)) : Prop where
  coords : f.coords = some x
  time : f.time = some T
  increasing : Verif.Interp.StrictlyIncreasing T
  some_names : names ≠ []
  vars : names.mapM f.vars = some vals
  shaped : ∀ v ∈ vals, ∃ rows : List (List K), v = .two rows ∧ rows.length = T.length ∧ ∀ r ∈ rows, r.length = x.length

end Verif.Sts
