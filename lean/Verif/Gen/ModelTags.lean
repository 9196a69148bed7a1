import Verif.Basic
import Verif.Mesh.Model

/-!
# Model of tags on their way through the mesh generator

Sources
* `/repo/anuga/pmesh/mesh.py` 53-55 (`initialconversions`), 2232-2331 (`region_strings2ints` and so on), 2331-2365 (`unique`), 1098-1136
* `/repo/anuga/mesh_engine/mesh_engine.py` 117-147 (repeated points)
* `/repo/anuga/abstract_2d_finite_volumes/pmesh2domain_ext.pyx` 33-131 (`build_boundary_dictionary`)
* `/repo/anuga/abstract_2d_finite_volumes/pmesh2domain.py` 74-88 (stage), 148-164 (`build_tagged_elements_dictionary`), 196-220

Simplifications: the generator itself is not modelled; a numeric list of region codes is a list of natural numbers; dictionaries are lists of
pairs.
-/

namespace Verif.Gen

/-- `unique` for strings, `mesh.py` 2331-2365: the keys of a dictionary in order of insertion. -/
def uniq (s : List String) : List String := s.foldl (fun u x => if x ∈ u then u else u ++ [x]) []

/-- The list of tags by code, `mesh.py` 2305-2319: reversed twice, so the preset comes first. -/
def convList (stringlist preset : List String) : List String :=
  (((uniq stringlist).filter fun x => !decide (x ∈ preset)).erase "" ++ preset.reverse).reverse

/-- `convertstring2int[x] = index` for the list of tags, `mesh.py` 2321-2327. -/
def convDict : List String → ℕ → List (String × ℕ) → List (String × ℕ)
  | [], _, d => d
  | x :: xs, index, d => convDict xs (index + 1) ((x, index) :: d)

/-- Result of `segment_strings2ints`: codes, tags by code, and the preset, which is reversed in place. -/
structure Coded where
  codes : List (Option ℕ)
  conv : List String
  preset : List String

/-- `segment_strings2ints`, `mesh.py` 2285-2334; a missing key is `none`. The newest entry of the dictionary is found first. -/
def segCodes (stringlist preset : List String) : Coded :=
  let conv := convList stringlist preset
  let d := ("", 0) :: convDict conv 0 []
  ⟨stringlist.map fun x => d.lookup x, conv, preset.reverse⟩

/-- `segment_ints2strings`, `mesh.py` 2276-2282, for codes that are not negative. -/
def segNames (codes : List ℕ) (conv : List String) : Option (List String) := codes.mapM fun x => conv[x]?

/-- `initialconversions`, `mesh.py` 55. -/
def initialConversions : List String := ["", "exterior", ""]

/-- `region_strings2ints`, `mesh.py` 2232-2257: codes of the regions and tags by code. -/
def regionCodes (tags : List String) : List ℕ × List String :=
  let l := (tags.reverse ++ [""]).reverse
  ((List.range l.length).tail, l)

/-- `region_ints2strings`, `mesh.py` 2260-2273. -/
def regionNames (codes : List ℕ) (conv : List String) : Option (List String) := codes.mapM fun x => conv[x]?

/-- Change of a segment end when point number `i`, equal to the earlier point `j`, is removed, `mesh_engine.py` 135-142. -/
def redirect (i j : ℕ) (s : ℕ) : ℕ :=
  let s := if s = i then j else s
  if s > i then s - 1 else s

/-- State of the loop over repeated points, `mesh_engine.py` 125-147. -/
structure Dedup (P : Type*) where
  i : ℕ
  points : List P
  segs : List (ℕ × ℕ)

/-- One pass, `mesh_engine.py` 127-147. -/
def dedupStep {P : Type*} [DecidableEq P] (s : Dedup P) : Dedup P :=
  let i := s.i + 1
  match s.points[i]? with
  | none => { s with i := i }
  | some p =>
    if p ∈ s.points.take i then
      let j := (s.points.take i).idxOf p
      ⟨i - 1, s.points.eraseIdx i, s.segs.map fun q => (redirect i j q.1, redirect i j q.2)⟩
    else { s with i := i }

/-- `while i < len(pts_complex) - 1`, `mesh_engine.py` 125-147: each pass either moves on or removes a point. -/
def dedupLoop {P : Type*} [DecidableEq P] : ℕ → Dedup P → Dedup P
  | 0, s => s
  | fuel + 1, s => if s.i + 1 < s.points.length then dedupLoop fuel (dedupStep s) else s

/-- The points and segments handed on, with enough passes. -/
def dedupPoints {P : Type*} [DecidableEq P] (points : List P) (segs : List (ℕ × ℕ)) : List P × List (ℕ × ℕ) :=
  let r := dedupLoop points.length ⟨0, points, segs⟩
  (r.points, r.segs)

/-- Edges of triangle `k` in the order of `build_boundary_dictionary`, `pmesh2domain_ext.pyx` 60-106. -/
def sideEntries (k : ℕ) (t : Mesh.Tri) : List ((ℕ × ℕ) × (ℕ × ℕ)) :=
  let (a, b, c) := t
  [((a, b), (k, 2)), ((b, c), (k, 0)), ((c, a), (k, 1))]

/-- The whole table; a repeated key is an error, `pmesh2domain_ext.pyx` 55-108. -/
def sideTable (tris : List Mesh.Tri) : Option (List ((ℕ × ℕ) × (ℕ × ℕ))) :=
  Mesh.insertAll [] (tris.zipIdx.map fun p => sideEntries p.2 p.1).flatten

/-- Assignment to a dictionary. -/
def assign (d : Mesh.BDict) (key : ℕ × ℕ) (v : String) : Mesh.BDict := (key, v) :: d.filter fun e => e.1 != key

/-- One look-up and assignment, `pmesh2domain_ext.pyx` 115-122, 124-131. -/
def markSide (tbl : List ((ℕ × ℕ) × (ℕ × ℕ))) (key : ℕ × ℕ) (tag : String) (d : Mesh.BDict) : Mesh.BDict :=
  match tbl.lookup key with
  | some s => if tag.length > 0 then assign d s tag else d
  | none => d

/-- `build_boundary_dictionary` with the conversions of `pmesh_dict_to_tag_dict`; `none` is the assertion about repeated segments. -/
def tagDict (tris : List Mesh.Tri) (segs : List (ℕ × ℕ)) (tags : List String) : Option Mesh.BDict :=
  match sideTable tris with
  | none => none
  | some tbl => some ((segs.zip tags).foldl (fun d s => markSide tbl (s.1.2, s.1.1) s.2 (markSide tbl s.1 s.2 d)) [])

/-- `setdefault(tag, []).append(i)`. -/
def appendTo (d : List (String × List ℕ)) (tag : String) (i : ℕ) : List (String × List ℕ) :=
  if (d.lookup tag).isSome then d.map fun e => if e.1 = tag then (e.1, e.2 ++ [i]) else e else d ++ [(tag, [i])]

/-- `build_tagged_elements_dictionary`, `pmesh2domain.py` 148-164. -/
def taggedElements (nTri : ℕ) (tags : Option (List String)) : List (String × List ℕ) :=
  match tags with
  | none => [("", List.range nTri)]
  | some l => l.zipIdx.foldl (fun d p => appendTo d p.1 p.2) []

/-- Default stage, `pmesh2domain.py` 82-85. -/
def withStage {V : Type*} (d : List (String × V)) : List (String × V) :=
  match d.lookup "elevation" with
  | some v => if (d.lookup "stage").isSome then d else d ++ [("stage", v)]
  | none => d

/-- From the outline to the domain: codes for the generator, names for its markers, tags for the edges, `mesh.py` 1107-1132,
`pmesh2domain.py` 196-220, with the mesh of `neighbour_mesh.py`. -/
def domainOf (segtags : List String) (gen : List (Option ℕ) → List Mesh.Tri × List (ℕ × ℕ) × List ℕ) : Option Mesh.MeshData :=
  let c := segCodes segtags initialConversions
  let out := gen c.codes
  match segNames out.2.2 c.conv with
  | none => none
  | some names =>
    match tagDict out.1 out.2.1 names with
    | none => none
    | some user =>
      match Mesh.buildMesh out.1 user with
      | .ok m => some m
      | .error _ => none

end Verif.Gen
