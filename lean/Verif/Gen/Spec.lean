import Verif.Gen.Model
import Mathlib.Data.List.Rotate

/-! Vocabulary for outlines: places in absolute coordinates, sides of polygons, tags of sides. -/

namespace Verif.Gen

open Verif.Polygon (Pt)
open Verif.GeoRef (Ref)

variable {K : Type*} [Field K] [LinearOrder K]

/-- A point given relative to an origin. -/
def shift (ox oy : K) (p : Pt K) : Pt K := ⟨p.x + ox, p.y + oy⟩

/-- Points given relative to an optional reference, in absolute coordinates. -/
def places (g : Option (Ref K)) (ps : List (Pt K)) : List (Pt K) :=
  match g with
  | none => ps
  | some g => ps.map (shift g.x g.y)

/-- A reference marked as absolute has its origin at zero. -/
def Honest (g : Option (Ref K)) : Prop := ∀ r, g = some r → r.absolute = true → r.x = 0 ∧ r.y = 0

/-- The segments of an outline as they would be drawn on a map: absolute end points and tags. -/
def Outline.picture (o : Outline K) : List ((Option (Pt K) × Option (Pt K)) × String) :=
  o.segs.map fun s => (((o.verts[s.1.1]?).map (shift o.ref.x o.ref.y), (o.verts[s.1.2]?).map (shift o.ref.x o.ref.y)), s.2)

/-- The sides of a closed polygon, from each point to the next and from the last to the first. -/
def sides (ps : List (Pt K)) : List (Pt K × Pt K) := ps.zip (ps.rotate 1)

/-- The pieces of an open line. -/
def pieces (ps : List (Pt K)) : List (Pt K × Pt K) := ps.zip ps.tail

/-- Drawn segments with given tags. -/
def drawn (l : List (Pt K × Pt K)) (tags : List String) : List ((Option (Pt K) × Option (Pt K)) × String) :=
  List.zipWith (fun s t => ((some s.1, some s.2), t)) l tags

/-- Number `i` means side `j` of `n` sides; negative numbers count from the end. -/
def Means (n : ℕ) (i : ℤ) (j : ℕ) : Prop := j < n ∧ (i = j ∨ i + n = j)

/-- The tag of side `j`: the last mention in the dictionary counts, a side that is not mentioned has the default. -/
def Tagged (d : Tags) (n : ℕ) (default : String) (j : ℕ) (t : String) : Prop :=
  (∃ A i B, (d.flatMap fun e => e.2.map fun i => (e.1, i)) = A ++ (t, i) :: B ∧ Means n i j ∧ ∀ q ∈ B, ¬ Means n q.2 j) ∨
    ((∀ e ∈ d, ∀ i ∈ e.2, ¬ Means n i j) ∧ t = default)

/-- A list of tags, one per side. -/
def TagsOf (d : Tags) (n : ℕ) (default : String) (l : List String) : Prop :=
  l.length = n ∧ ∀ (j : ℕ) (t : String), l[j]? = some t → Tagged d n default j t

/-- Strictly inside as decided by the test of polygons (C17). -/
def Inside (sq : K → K) (poly : List (Pt K)) (p : Pt K) : Prop := Polygon.isInsidePolygon sq false p poly = some true

/-- A point next to a corner of a polygon: each coordinate is moved by the fraction `delta` of itself (by `delta` if it is zero), up, down or
not at all. -/
def NextTo (delta : K) (poly : List (Pt K)) (p : Pt K) : Prop :=
  ∃ v ∈ poly, ∃ mx my : K, (mx = -1 ∨ mx = 0 ∨ mx = 1) ∧ (my = -1 ∨ my = 0 ∨ my = 1) ∧
    p = ⟨v.x + mx * delta * (if v.x = 0 then 1 else v.x), v.y + my * delta * (if v.y = 0 then 1 else v.y)⟩

/-- Some point next to a corner, with fraction `10^-8`, `10^-9`, ... (`rounds` of them), is strictly inside. -/
def Reachable (sq : K → K) (rounds : ℕ) (poly : List (Pt K)) : Prop :=
  ∃ k < rounds, ∃ p, NextTo (1 / 10 ^ (8 + k)) poly p ∧ Inside sq poly p

/-- All corners inside a polygon or on its sides. -/
def Contained (sq : K → K) (bounding poly : List (Pt K)) : Prop := ∀ p ∈ poly, Polygon.isInsidePolygon sq true p bounding = some true

open Classical in
/-- The interior regions that count: those that are contained. -/
noncomputable def inner (sq : K → K) (a : Args K) : List (List (Pt K) × Option K) :=
  (a.interior.getD []).filter fun r => decide (Contained sq a.bounding r.1)

/-- The dictionary of tags of hole number `k`. -/
def tagsOfHole (a : Args K) (k : ℕ) : Tags := ((a.holeTags.getD [])[k]?).getD []

/-- Regions in absolute coordinates. -/
def Outline.regionPlaces (o : Outline K) : List (Pt K × String × Option K) :=
  o.regions.map fun r => (shift o.ref.x o.ref.y r.at_, r.tag, r.maxArea)

/-- Hole points in absolute coordinates. -/
def Outline.holePlaces (o : Outline K) : List (Pt K) := o.holes.map (shift o.ref.x o.ref.y)

/-- What `create_mesh_from_regions` needs. -/
structure Acceptable (sq : K → K) (rounds : ℕ) (a : Args K) : Prop where
  /-- every number of a boundary tag is a side -/
  tags : ∀ e ∈ a.tags.getD [], ∀ i ∈ e.2, ∃ j, Means a.bounding.length i j
  /-- interior regions are contained, unless those that are not shall be left out -/
  contained : a.failOutside = true → ∀ r ∈ a.interior.getD [], Contained sq a.bounding r.1
  /-- holes are polygons and are contained -/
  holes : ∀ h ∈ a.holes.getD [], 3 ≤ h.length ∧ Contained sq a.bounding h
  /-- every number of a hole tag is a side of the hole -/
  holeTags : ∀ (k : ℕ) h, (a.holes.getD [])[k]? = some h → ∀ e ∈ tagsOfHole a k, ∀ i ∈ e.2, ∃ j, Means h.length i j
  /-- without a reference for the mesh, the zone of the reference of the polygons is a zone -/
  zone : a.meshRef = none → ∀ g, a.polyRef = some g → g.zone = -1 ∨ 1 ≤ g.zone ∧ g.zone ≤ 60
  /-- no polygon is a single point -/
  bounding : a.bounding.length ≠ 1
  single : ∀ r ∈ inner sq a, r.1.length ≠ 1
  /-- points inside the polygons can be found -/
  reachable : Reachable sq rounds (places a.polyRef a.bounding)
  inside : ∀ r ∈ inner sq a, r.2.isSome = true → Reachable sq rounds (places a.polyRef r.1)
  hole : ∀ h ∈ a.holes.getD [], Reachable sq rounds (places a.polyRef h)

end Verif.Gen
