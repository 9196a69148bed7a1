import Verif.Basic
import Verif.GeoRef.Model
import Verif.Polygon.Model

/-!
# Model of `create_mesh_from_regions`: from polygons and tags to the outline given to the triangulator

Sources
* `/repo/anuga/pmesh/mesh_interface.py` 144-370 (`_create_mesh_from_regions`)
* `/repo/anuga/pmesh/mesh.py` 199-252 (`Region`), 291-308 (`Segment`), 478-520, 587-617, 651-804, 886-948 (`Mesh`)
* `/repo/anuga/geometry/polygon.py` 946-982 (`point_in_polygon`), 1133-1145 (`polylist2points_verts`)

Simplifications: exact ordered field; a dictionary is a list of keys with their values in order of insertion; a file name, caching, verbosity
and warnings are left out; vertex objects are their numbers; a `SegmentError` and so on are constructors of `Err`; the unlimited loop of
`point_in_polygon` has a number of rounds, `Err.hangs` is returned after them.
-/

namespace Verif.Gen

open Verif.Polygon (Pt)
open Verif.GeoRef (Ref)

variable {K : Type*} [Field K] [LinearOrder K]

/-- Ways to fail. -/
inductive Err where
  | segment
  | polygon
  | index
  | assertion
  | empty
  | hangs
  deriving DecidableEq, Repr

/-- `Region`, `mesh.py` 199-252. -/
structure Region (K : Type*) where
  at_ : Pt K
  tag : String
  maxArea : Option K
  deriving DecidableEq

/-- The user part of a `Mesh`, `mesh.py` 478-520: vertices relative to the origin of the reference, segments with tags, holes and regions. -/
structure Outline (K : Type*) where
  ref : Ref K
  verts : List (Pt K)
  segs : List ((ℕ × ℕ) × String)
  holes : List (Pt K)
  regions : List (Region K)
  deriving DecidableEq

/-- `Mesh(geo_reference=ref)`. -/
def Outline.empty (ref : Ref K) : Outline K := ⟨ref, [], [], [], []⟩

/-- A dictionary of tags: for every tag a list of segment numbers. -/
abbrev Tags := List (String × List ℤ)

/-- The element of a list of length `n` that a Python index refers to. -/
def pyIndex (n : ℕ) (i : ℤ) : Option ℕ :=
  if 0 ≤ i ∧ i < n then some i.toNat else if -(n : ℤ) ≤ i ∧ i < 0 then some (n + i).toNat else none

/-- The inner loop `for i in indices: segment_tags[i] = key`, `mesh.py` 802-803. -/
def setTag (key : String) : List ℤ → List String → Except Err (List String)
  | [], l => .ok l
  | i :: is, l => match pyIndex l.length i with
    | some j => setTag key is (l.set j key)
    | none => .error .index

/-- The outer loop, `mesh.py` 800-803. -/
def setTags : Tags → List String → Except Err (List String)
  | [], l => .ok l
  | (key, is) :: rest, l => match setTag key is l with
    | .ok l' => setTags rest l'
    | .error e => .error e

/-- `_tag_dict2list`, `mesh.py` 779-804. -/
def tagList (tags : Option Tags) (n : ℕ) (hole : Bool) : Except Err (List String) :=
  let start := List.replicate n (if hole then "interior" else "")
  match tags with
  | none => .ok start
  | some d => setTags d start

/-- `addVertsSegs`, `mesh.py` 916-948, with points in absolute coordinates.  `Segment` asserts that its ends are different vertices (302). -/
def addVertsSegs (o : Outline K) (points : List (Pt K)) (segs : List (ℕ × ℕ)) (tags : List String) : Except Err (Outline K) :=
  if (segs.zip tags).any fun s => decide (points.length ≤ s.1.1 ∨ points.length ≤ s.1.2) then .error .index
  else if (segs.zip tags).any fun s => s.1.1 == s.1.2 then .error .assertion
  else .ok { o with
    verts := o.verts ++ points.map (GeoRef.subOrigin o.ref)
    segs := o.segs ++ (segs.zip tags).map fun s => ((s.1.1 + o.verts.length, s.1.2 + o.verts.length), s.2) }

/-- `add_points_and_segments`, `mesh.py` 886-914, without tags and with segments. -/
def addPointsSegs (o : Outline K) (points : List (Pt K)) (segs : List (ℕ × ℕ)) : Except Err (Outline K) :=
  match tagList none segs.length false with
  | .error e => .error e
  | .ok tags => addVertsSegs o points segs tags

/-- The nine points tried around a vertex, `polygon.py` 964-978. -/
def candidates (delta : K) (p : Pt K) : List (Pt K) :=
  [-1, 0, 1].flatMap fun mx : K => [-1, 0, 1].map fun my : K =>
    ⟨if p.x = 0 then mx * delta else p.x + mx * p.x * delta, if p.y = 0 then my * delta else p.y + my * p.y * delta⟩

/-- `point_in_polygon`, `polygon.py` 946-982, with a number of rounds. -/
def pointInPolygon (sq : K → K) (poly : List (Pt K)) : ℕ → K → Option (Pt K)
  | 0, _ => none
  | rounds + 1, delta =>
    match (poly.flatMap (candidates delta)).find? fun p => Polygon.isInsidePolygon sq false p poly == some true with
    | some p => some p
    | none => pointInPolygon sq poly rounds (delta * (1 / 10))

/-- Segments around a polygon, `mesh.py` 750-756. -/
def ring (n : ℕ) : List (ℕ × ℕ) := (List.range n).map fun i : ℕ => (i, (i + 1) % n)

/-- What `_add_area_from_polygon` adds besides the segments. -/
inductive Kind where
  | plain
  | region
  | hole
  deriving DecidableEq

/-- `get_absolute` if there is a reference, `mesh.py` 738-739. -/
def absolute (g : Option (Ref K)) (ps : List (Pt K)) : List (Pt K) :=
  match g with
  | none => ps
  | some g => GeoRef.toAbs g ps

/-- Appending regions with points in absolute coordinates, `add_region` (`mesh.py` 603-617) and `setMaxArea`. -/
def addRegionPts (o : Outline K) (l : List (Pt K × Option K)) : Outline K :=
  { o with regions := o.regions ++ l.map fun r => ⟨GeoRef.subOrigin o.ref r.1, "", r.2⟩ }

/-- `_add_area_from_polygon` with the arguments of `add_region_from_polygon` (`mesh.py` 675-710) and `add_hole_from_polygon` (651-673);
712-777. -/
def addArea (sq : K → K) (rounds : ℕ) (o : Outline K) (poly : List (Pt K)) (tags : Option Tags) (g : Option (Ref K)) (kind : Kind)
    (maxArea : Option K) : Except Err (Outline K) :=
  let abs := absolute g poly
  match tagList tags abs.length (kind == .hole) with
  | .error e => .error e
  | .ok l =>
    match addVertsSegs o abs (ring abs.length) l with
    | .error e => .error e
    | .ok o' =>
      match kind with
      | .plain => .ok o'
      | .region => match pointInPolygon sq abs rounds (1 / 10 ^ 8) with
        | none => .error .hangs
        | some p => .ok (addRegionPts o' [(p, maxArea)])
      | .hole => match pointInPolygon sq abs rounds (1 / 10 ^ 8) with
        | none => .error .hangs
        | some p => .ok { o' with holes := o'.holes ++ [GeoRef.subOrigin o'.ref p] }

/-- `polylist2points_verts`, `polygon.py` 1133-1145. -/
def breakParts : ℕ → List (List (Pt K)) → List (Pt K) × List (ℕ × ℕ)
  | _, [] => ([], [])
  | offset, line :: rest =>
    let r := breakParts (offset + line.length) rest
    (line ++ r.1, (List.range (line.length - 1)).map (fun i : ℕ => (offset + i, offset + i + 1)) ++ r.2)

/-- Arguments of `create_mesh_from_regions`. -/
structure Args (K : Type*) where
  bounding : List (Pt K)
  tags : Option Tags
  maxArea : Option K
  interior : Option (List (List (Pt K) × Option K))
  holes : Option (List (List (Pt K)))
  holeTags : Option (List Tags)
  polyRef : Option (Ref K)
  meshRef : Option (Ref K)
  breaklines : Option (List (List (Pt K)))
  regionPts : Option (List (Pt K × K))
  failOutside : Bool

/-- `len(inside_polygon(polygon, bounding_polygon, closed=True)) == len(polygon)`, `mesh_interface.py` 205-208, 258-261. -/
def within (sq : K → K) (bounding poly : List (Pt K)) : Bool :=
  (Polygon.insidePolygon sq true poly bounding).length == poly.length

/-- The check of segment numbers, `mesh_interface.py` 164-171. -/
def checkTags (tags : Option Tags) (n : ℕ) : Bool :=
  match tags with
  | none => true
  | some d => d.all fun t => t.2.all fun i => decide (i ≤ (n : ℤ) - 1)

/-- The interior regions that are used, `mesh_interface.py` 196-223. -/
def keepRegions (sq : K → K) (a : Args K) : Except Err (List (List (Pt K) × Option K)) :=
  match a.interior with
  | none => .ok []
  | some l => if a.failOutside && l.any (fun r => !within sq a.bounding r.1) then .error .polygon
    else .ok (l.filter fun r => within sq a.bounding r.1)

/-- The check of the holes, `mesh_interface.py` 246-264. -/
def checkHoles (sq : K → K) (a : Args K) : Bool :=
  (a.holes.getD []).all fun h => decide (3 ≤ h.length) && within sq a.bounding h

/-- Smallest coordinate of a list, `min(bounding_polygon[:,0])`. -/
def minOf : List K → Option K
  | [] => none
  | a :: l => some (l.foldl min a)

/-- The reference of the mesh, `mesh_interface.py` 266-280. -/
def meshRef (a : Args K) : Except Err (Ref K) :=
  match a.meshRef with
  | some g => .ok g
  | none =>
    match minOf (a.bounding.map (·.x)), minOf (a.bounding.map (·.y)) with
    | some x, some y =>
      let zone := match a.polyRef with
        | none => GeoRef.defaultZone
        | some g => g.zone
      match absolute a.polyRef [⟨x, y⟩] with
      | [p] => match GeoRef.make zone p.x p.y .undefined with
        | .ok g => .ok g
        | .error _ => .error .assertion
      | _ => .error .empty
    | _, _ => .error .empty

/-- The loop over the interior regions, `mesh_interface.py` 329-333. Without a resolution no region point is made (`mesh.py` 694-697). -/
def addRegions (sq : K → K) (rounds : ℕ) (g : Option (Ref K)) : List (List (Pt K) × Option K) → Outline K → Except Err (Outline K)
  | [], o => .ok o
  | (poly, res) :: rest, o => match addArea sq rounds o poly none g (if res.isSome then .region else .plain) res with
    | .ok o' => addRegions sq rounds g rest o'
    | .error e => .error e

/-- The loop over the holes, `mesh_interface.py` 336-344; `n` counts the holes, a missing entry of `hole_tags` means no tags. -/
def addHoles (sq : K → K) (rounds : ℕ) (g : Option (Ref K)) (holeTags : Option (List Tags)) :
    ℕ → List (List (Pt K)) → Outline K → Except Err (Outline K)
  | _, [], o => .ok o
  | n, poly :: rest, o =>
    match addArea sq rounds o poly (some (((holeTags.getD [])[n]?).getD [])) g .hole none with
    | .ok o' => addHoles sq rounds g holeTags (n + 1) rest o'
    | .error e => .error e

/-- The breaklines, `mesh_interface.py` 285-287. -/
def addBreaklines (b : Option (List (List (Pt K)))) (o : Outline K) : Except Err (Outline K) :=
  match b with
  | none => .ok o
  | some b => addPointsSegs o (breakParts 0 b).1 (breakParts 0 b).2

/-- `_create_mesh_from_regions` without file name, `mesh_interface.py` 144-361. -/
def createOutline (sq : K → K) (rounds : ℕ) (a : Args K) : Except Err (Outline K) :=
  if checkTags a.tags a.bounding.length then
    match keepRegions sq a with
    | .error e => .error e
    | .ok inner =>
      if checkHoles sq a then
        match meshRef a with
        | .error e => .error e
        | .ok ref =>
          match addBreaklines a.breaklines (Outline.empty ref) with
          | .error e => .error e
          | .ok o0 =>
            -- 290-292
            match addArea sq rounds o0 a.bounding a.tags a.polyRef .plain none with
            | .error e => .error e
            | .ok o1 =>
              -- 310-312
              match pointInPolygon sq (absolute a.polyRef a.bounding) rounds (1 / 10 ^ 8) with
              | none => .error .hangs
              | some p =>
                match addRegions sq rounds a.polyRef inner (addRegionPts o1 [(p, a.maxArea)]) with
                | .error e => .error e
                | .ok o2 =>
                  match addHoles sq rounds a.polyRef a.holeTags 0 (a.holes.getD []) o2 with
                  | .error e => .error e
                  | .ok o3 =>
                    -- 348-351
                    .ok (addRegionPts o3 ((a.regionPts.getD []).map fun r => (r.1, some r.2)))
      else .error .polygon
  else .error .segment

end Verif.Gen
