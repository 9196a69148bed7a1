import Verif.GeoRef.Model

/-! # Vocabulary for geo references -/

namespace Verif.GeoRef

open Verif.Polygon (Pt)

variable {K : Type*} [Field K] [LinearOrder K]

/-- Where on the map a point with coordinates `p` relative to an origin `(x, y)` is. -/
def position (x y : K) (p : Pt K) : Pt K := ⟨x + p.x, y + p.y⟩

/-- Positions of a list of points given relative to a reference. -/
def positions (g : Ref K) (ps : List (Pt K)) : List (Pt K) := ps.map (position g.x g.y)

/-- Both coordinates differ by at most `1e-8`. -/
def Close (p q : Pt K) : Prop := |p.x - q.x| ≤ 1 / 10 ^ 8 ∧ |p.y - q.y| ≤ 1 / 10 ^ 8

/-- The stored flag says whether the origin is (nearly) `(0, 0)`; every constructor leaves the object like this. -/
def FlagOk (g : Ref K) : Prop := g.absolute = true ↔ |g.x| ≤ 1 / 10 ^ 8 ∧ |g.y| ≤ 1 / 10 ^ 8

/-- The origin is exactly `(0, 0)` or visibly different from it. -/
def Ordinary (g : Ref K) : Prop := g.x = 0 ∧ g.y = 0 ∨ 1 / 10 ^ 8 < |g.x| ∨ 1 / 10 ^ 8 < |g.y|

/-- A permitted zone: undefined or one of the 60 UTM zones. -/
def ZoneOk (z : ℤ) : Prop := z = -1 ∨ 1 ≤ z ∧ z ≤ 60

/-- Two zone numbers contradict each other: both defined and different. -/
def ZonesClash (a b : ℤ) : Prop := a ≠ -1 ∧ b ≠ -1 ∧ a ≠ b

/-- Two hemispheres contradict each other. -/
def HemisClash (a b : Hemi) : Prop := a ≠ .undefined ∧ b ≠ .undefined ∧ a ≠ b

/-- Two optional pieces of information that do not contradict: the known one, if any. -/
def known {α : Type*} [DecidableEq α] (undef a b : α) : α := if a = undef then b else a

/-- The data row by row: absolute point and the value of every attribute there. -/
def records (d : Data K) : List (Pt K × List (String × Option K)) :=
  d.absPts.zipIdx.map fun pi => (pi.1, (d.attrs.getD []).map fun kv => (kv.1, kv.2[pi.2]?))

/-- Every attribute has one value per point. -/
def Rect (d : Data K) : Prop := ∀ kv ∈ d.attrs.getD [], kv.2.length = d.pts.length

end Verif.GeoRef
