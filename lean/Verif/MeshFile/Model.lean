import Verif.Basic

/-!
# Mesh files in text form

* `/repo/anuga/load_mesh/loadASCII.py` 82 (`NOMAXAREA`), 85-141 (`import_mesh_file`, `export_mesh_file`), 144-155
  (`_read_tsh_file`), 158-251 (`_read_triangulation`), 254-377 (`_read_outline`), 380-491 (`_write_ASCII_triangulation`),
  494-498 (`_write_tsh_file`), 501-566 (`_write_ASCII_outline`)
* `/repo/anuga/coordinate_transforms/geo_reference.py` 34 (`TITLE`), 235-246 (`write_ASCII`), 248-280 (`read_ASCII`)
* `/repo/anuga/pmesh/mesh.py` 1994-2062 (`Mesh2IOOutlineDict`), 2079-2146 (`IOOutline2Mesh`)

A text is a list of characters. A file which is read is a list of lines without their ends; past the last line `readline`
gives the empty text. `none` stands for an exception (`import_mesh_file` turns them into `IOError`).

Simplified: how numbers are written and read (`str`, `float`) is a parameter (numbers are any type); whole numbers are written and read in
decimal with an optional minus sign (Python also reads a plus sign, underscores and surrounding white space); of the white
space of Unicode the characters up to 32, 133 and 160 are taken; `\r\n` counts as two ends of line; entries of lists have
the type the docstrings say (tags are texts, rows of attributes are lists).
-/

namespace Verif.MeshFile

/-- A text. -/
abbrev Str := List Char

/-! ## Text -/

/-- `c.isspace()`. -/
def isSpace (c : Char) : Bool :=
  let n := c.toNat
  (9 ≤ n && n ≤ 13) || (28 ≤ n && n ≤ 32) || n == 133 || n == 160

/-- A character which ends a line of a text file. -/
def isEnd (c : Char) : Bool := c == '\n' || c == '\r'

/-- `s.lstrip()`. -/
def lstrip (s : Str) : Str := s.dropWhile isSpace

/-- `s.rstrip()`. -/
def rstrip (s : Str) : Str := (s.reverse.dropWhile isSpace).reverse

/-- `s.strip()`. -/
def strip (s : Str) : Str := rstrip (lstrip s)

/-- Put a character in front of the first word. -/
def glue (c : Char) : List Str → List Str
  | [] => [[c]]
  | w :: ws => (c :: w) :: ws

/-- `s.split()`. -/
def words : Str → List Str
  | [] => []
  | c :: s =>
    if isSpace c then words s
    else if s.head?.all isSpace then [c] :: words s
    else glue c (words s)

/-- `line[line.find(' '):]`. Without a blank the code keeps the last character, which is the end of the line and is removed
by the `lstrip` or `strip` which follows. -/
def cut (s : Str) : Str := s.dropWhile fun c => c != ' '

/-- Text which follows `n` blocks, the loop of 217-220. -/
def cutN : ℕ → Str → Str
  | 0, s => s
  | n + 1, s => cutN n (lstrip (cut s))

/-- Put a line in front of lines. -/
def glueLine (c : Char) : List Str → List Str
  | [] => [[c]]
  | l :: ls => (c :: l) :: ls

/-- The lines of a file. -/
def lines : Str → List Str
  | [] => []
  | c :: s => if isEnd c then [] :: lines s else glueLine c (lines s)

/-- `str(n)` of a natural number. -/
def showNat (n : ℕ) : Str := Nat.toDigits 10 n

/-- `str(i)` of a whole number. -/
def showInt : ℤ → Str
  | .ofNat n => showNat n
  | .negSucc n => '-' :: showNat (n + 1)

/-- The value of digits. -/
def readNat (s : Str) : Option ℕ := if s ≠ [] ∧ s.all Char.isDigit then some (Nat.ofDigitChars 10 s 0) else none

/-- `int(s)`. -/
def readInt (s : Str) : Option ℤ :=
  if s.head? = some '-' then (readNat s.tail).map fun n : ℕ => -(n : ℤ)
  else (readNat s).map fun n : ℕ => (n : ℤ)

/-- How numbers are written (`str`) and read (`float`). -/
structure Codec (K : Type) where
  show' : K → Str
  read : Str → Option K

/-! ## The dictionary -/

/-- A geo reference: what `Geo_reference` keeps. -/
structure Ref (K : Type) where
  zone : ℤ
  xll : K
  yll : K
  hemisphere : Str
  falseEasting : ℤ
  falseNorthing : ℤ
  datum : Str
  projection : Str
  units : Str

/-- The reference with the given zone and origin and defaults otherwise, `geo_reference.py` 23-32. -/
def Ref.plain {K : Type} (zone : ℤ) (x y : K) : Ref K :=
  ⟨zone, x, y, "undefined".toList, 500000, 10000000, "wgs84".toList, "UTM".toList, "m".toList⟩

/-- The dictionary which is written to and read from mesh files. -/
structure Dict (K : Type) where
  vertices : List (K × K)
  vertexAttributes : Option (List (List K))
  vertexTitles : List Str
  triangles : List (ℤ × ℤ × ℤ)
  triangleTags : Option (List Str)
  neighbours : List (Option ℤ × Option ℤ × Option ℤ)
  segments : List (ℤ × ℤ)
  segmentTags : List Str
  points : List (K × K)
  pointAttributes : List (List K)
  outline : List (ℤ × ℤ)
  outlineTags : List Str
  holes : List (K × K)
  regions : List (K × K)
  regionTags : List Str
  regionAreas : List (Option K)
  geo : Option (Ref K)

variable {K : Type}

/-! ## Writing -/

/-- `str(i) + " " + str(x) + " " + str(y) + " " + attlist`, 421-432 and 523-529. -/
def vertexLine (c : Codec K) (i : ℕ) (p : K × K) (atts : List K) : Str :=
  showNat i ++ ' ' :: (c.show' p.1 ++ ' ' :: (c.show' p.2 ++ ' ' :: atts.flatMap fun a => c.show' a ++ [' ']))

/-- `str(i) + " " + a + " " + b + " " + tag`, 487-491, 536-539, 553-556. -/
def taggedLine (i : ℕ) (a b tag : Str) : Str := showNat i ++ ' ' :: (a ++ ' ' :: (b ++ ' ' :: tag))

/-- One neighbour, 458-464: an absent one is written as -1. -/
def showNeighbour : Option ℤ → Str
  | none => showInt (-1)
  | some j => showInt j

/-- The line of a triangle, 471-477. -/
def triangleLine (i : ℕ) (t : ℤ × ℤ × ℤ) (nb : Option ℤ × Option ℤ × Option ℤ) (tag : Str) : Str :=
  showNat i ++ ' ' :: (showInt t.1 ++ ' ' :: (showInt t.2.1 ++ ' ' :: (showInt t.2.2 ++ ' ' ::
    (showNeighbour nb.1 ++ ' ' :: (showNeighbour nb.2.1 ++ ' ' :: (showNeighbour nb.2.2 ++ ' ' :: ' ' :: tag))))))

/-- Lines numbered from `i`, made from the entries and their counterparts in a second list; a missing counterpart is an
exception. -/
def numbered {α β : Type*} (f : ℕ → α → β → Str) : ℕ → List α → List β → Option (List Str)
  | _, [], _ => some []
  | _, _ :: _, [] => none
  | i, x :: xs, y :: ys => (numbered f (i + 1) xs ys).map (f i x y :: ·)

/-- The count of attributes in the first line, 403-416. -/
def attributeCount (nVert : ℕ) : Option (List (List K)) → ℕ
  | none => 0
  | some rows => if nVert = 0 then 0 else (rows.headD []).length

/-- The rows of attributes which are written, 424-429: none at all for `None` and `[]`. -/
def attributeRows (nVert : ℕ) : Option (List (List K)) → List (List K)
  | none => List.replicate nVert []
  | some [] => List.replicate nVert []
  | some rows => rows

/-- The tags of triangles which are written, 465-470 (`None` and `[]` give empty tags). -/
def triangleTagRows (n : ℕ) : Option (List Str) → List Str
  | none => List.replicate n []
  | some [] => List.replicate n []
  | some tags => tags

/-- The neighbours which are written, 452-456 (`[]` gives -1 throughout). -/
def neighbourRows (n : ℕ) : List (Option ℤ × Option ℤ × Option ℤ) → List (Option ℤ × Option ℤ × Option ℤ)
  | [] => List.replicate n (none, none, none)
  | rows => rows

/-- Heading of the vertices, 418-420 and 519-521. -/
def vertexHead (n k : ℕ) (text : String) : Str :=
  showNat n ++ ' ' :: (showNat k ++ ' ' :: text.toList)

/-- Heading of the other sections. -/
def countHead (n : ℕ) (text : String) : Str := showNat n ++ ' ' :: text.toList

/-- `_write_ASCII_triangulation`, 380-491. -/
def writeTriangulation (c : Codec K) (d : Dict K) : Option (List Str) := do
  let vs ← numbered (vertexLine c) 0 d.vertices (attributeRows d.vertices.length d.vertexAttributes)
  let ts ← numbered (fun i t (r : (Option ℤ × Option ℤ × Option ℤ) × Str) => triangleLine i t r.1 r.2) 0 d.triangles
    ((neighbourRows d.triangles.length d.neighbours).zip (triangleTagRows d.triangles.length d.triangleTags))
  let ss ← numbered (fun i s tag => taggedLine i (showInt s.1) (showInt s.2) tag) 0 d.segments d.segmentTags
  return vertexHead d.vertices.length (attributeCount d.vertices.length d.vertexAttributes)
      "# <# of verts> <# of vert attributes>, next lines <vertex #> <x> <y> [attributes] ...Triangulation Vertices..." :: vs
    ++ "# attribute column titles ...Triangulation Vertex Titles...".toList :: d.vertexTitles
    ++ countHead d.triangles.length "# <# of triangles>, next lines <triangle #> [<vertex #>] [<neigbouring triangle #>] [attribute of region] ...Triangulation Triangles..." :: ts
    ++ countHead d.segments.length "# <# of segments>, next lines <segment #> <vertex #>  <vertex #> [boundary tag] ...Triangulation Segments..." :: ss

/-- `str(area)`, 563: without an area the text is `None`. -/
def showArea (c : Codec K) : Option K → Str
  | none => "None".toList
  | some a => c.show' a

/-- `Geo_reference.write_ASCII`, `geo_reference.py` 235-246. -/
def writeRef (c : Codec K) : Option (Ref K) → List Str
  | none => []
  | some r => ["#geo reference".toList, showInt r.zone, c.show' r.xll, c.show' r.yll]

/-- The count of attributes of the points, 511-515. -/
def pointColumns (d : Dict K) : Option ℕ :=
  if d.points.length = 0 then some 0 else d.pointAttributes.head?.map List.length

/-- `_write_ASCII_outline`, 501-570. -/
def writeOutline (c : Codec K) (d : Dict K) : Option (List Str) := do
  let k ← pointColumns d
  let ps ← numbered (vertexLine c) 0 d.points d.pointAttributes
  let ss ← numbered (fun i s tag => taggedLine i (showInt s.1) (showInt s.2) tag) 0 d.outline d.outlineTags
  let hs ← numbered (fun i (h : K × K) (_ : Unit) => showNat i ++ ' ' :: (c.show' h.1 ++ ' ' :: c.show' h.2)) 0 d.holes
    (List.replicate d.holes.length ())
  let rs ← numbered (fun i (r : K × K) tag => taggedLine i (c.show' r.1) (c.show' r.2) tag) 0 d.regions d.regionTags
  let as ← numbered (fun i (_ : K × K) a => showNat i ++ ' ' :: showArea c a) 0 d.regions d.regionAreas
  return vertexHead d.points.length k
      "# <# of verts> <# of vert attributes>, next lines <vertex #> <x> <y> [attributes] ...Mesh Vertices..." :: ps
    ++ countHead d.outline.length "# <# of segments>, next lines <segment #> <vertex #>  <vertex #> [boundary tag] ...Mesh Segments..." :: ss
    ++ countHead d.holes.length "# <# of holes>, next lines <Hole #> <x> <y> ...Mesh Holes..." :: hs
    ++ countHead d.regions.length "# <# of regions>, next lines <Region #> <x> <y> <tag>...Mesh Regions..." :: rs
    ++ countHead d.regions.length "# <# of regions>, next lines <Region #> [Max Area] ...Mesh Regions..." :: as
    ++ writeRef c d.geo

/-- `_write_tsh_file`, 494-498: the text of the file. -/
def writeTsh (c : Codec K) (d : Dict K) : Option Str := do
  let t ← writeTriangulation c d
  let o ← writeOutline c d
  return (t ++ o).flatMap fun l => l ++ ['\n']

/-! ## Reading -/

/-- `fd.readline()`. -/
def line (ls : List Str) : Str := ls.headD []

/-- Read `n` lines. -/
def readMany {α : Type*} (f : Str → Option α) : ℕ → List Str → Option (List α × List Str)
  | 0, ls => some ([], ls)
  | n + 1, ls => do
    let x ← f (line ls)
    let r ← readMany f n ls.tail
    return (x :: r.1, r.2)

/-- `range(int(s))` has that many entries. -/
def count (s : Str) : Option ℕ := (readInt s).map Int.toNat

/-- Position and attributes of a vertex, 182-190 and 278-286. -/
def readVertex (c : Codec K) (l : Str) : Option ((K × K) × List K) :=
  match words l with
  | _ :: x :: y :: atts => do
    let x ← c.read x
    let y ← c.read y
    let as ← atts.mapM c.read
    return ((x, y), as)
  | _ => none

/-- The text behind the first three blocks, 235-241, 299-305, 339-344. -/
def tagOf (l : Str) : Str := strip (cut (lstrip (cut (lstrip (cut l)))))

/-- A segment and its tag, 230-242 and 295-306. -/
def readSegment (l : Str) : Option ((ℤ × ℤ) × Str) :=
  match words l with
  | _ :: a :: b :: _ => do
    let a ← readInt a
    let b ← readInt b
    return ((a, b), tagOf l)
  | _ => none

/-- A triangle, its neighbours and its tag, 209-222. -/
def readTriangle (l : Str) : Option ((ℤ × ℤ × ℤ) × (ℤ × ℤ × ℤ) × Str) :=
  match words l with
  | _ :: a :: b :: e :: p :: q :: r :: _ => do
    let a ← readInt a
    let b ← readInt b
    let e ← readInt e
    let p ← readInt p
    let q ← readInt q
    let r ← readInt r
    return ((a, b, e), (p, q, r), strip (cutN 7 l))
  | _ => none

/-- A position (a hole), 317-319, and the position and tag of a region, 331-345. -/
def readPlace (c : Codec K) (l : Str) : Option ((K × K) × Str) :=
  match words l with
  | _ :: x :: y :: _ => do
    let x ← c.read x
    let y ← c.read y
    return ((x, y), tagOf l)
  | _ => none

/-- The greatest area of a region, 349-360: anything which is not a number is `None`. -/
def readArea (c : Codec K) (l : Str) : Option K :=
  match words l with
  | _ :: a :: _ => c.read a
  | _ => none

/-- Heading with two counts, 164-171 and 266-273: an empty line counts nothing. -/
def readHead (l : Str) : Option (ℕ × Option Str) :=
  match words l with
  | [] => some (0, some (showNat 0))
  | [n] => (count n).map fun n => (n, none)
  | n :: k :: _ => (count n).map fun n => (n, some k)

/-- Heading with one count; an empty line is an exception within the triangulation, 201-203 and 225-227, … -/
def readCount (l : Str) : Option ℕ :=
  match words l with
  | [] => none
  | n :: _ => count n

/-- … and counts nothing within the outline, 288-293, 308-313, 322-327. -/
def readCount0 (l : Str) : Option ℕ :=
  match words l with
  | [] => some 0
  | n :: _ => count n

/-- `fragments[1]` when there is only one word is an exception. -/
def headOf (l : Str) : Option (ℕ × Str) :=
  match readHead l with
  | some (n, some k) => some (n, k)
  | _ => none

/-- What `_read_triangulation` gives. -/
structure Tri (K : Type) where
  vertices : List (K × K)
  vertexAttributes : Option (List (List K))
  vertexTitles : List Str
  triangles : List (ℤ × ℤ × ℤ)
  triangleTags : List Str
  neighbours : List (ℤ × ℤ × ℤ)
  segments : List (ℤ × ℤ)
  segmentTags : List Str

/-- Rows without attributes are left out, and no rows are `None`, 189-190 and 246-249. -/
def keptRows (rows : List (List K)) : Option (List (List K)) :=
  let kept := rows.filter fun r => !r.isEmpty
  if kept.isEmpty then none else some kept

/-- `_read_triangulation`, 158-257. -/
def readTriangulation (c : Codec K) (ls : List Str) : Option (Tri K × List Str) := do
  let (n, k) ← headOf (line ls)
  let (vs, ls) ← readMany (readVertex c) n ls.tail
  let k ← count k
  let (titles, ls) ← readMany (fun l => some (strip l)) k ls.tail
  let n ← readCount (line ls)
  let (ts, ls) ← readMany readTriangle n ls.tail
  let n ← readCount (line ls)
  let (ss, ls) ← readMany readSegment n ls.tail
  return (⟨vs.map (·.1), keptRows (vs.map (·.2)), titles, ts.map (·.1), ts.map (·.2.2), ts.map (·.2.1), ss.map (·.1),
    ss.map (·.2)⟩, ls)

/-- What `_read_outline` gives. -/
structure Outline (K : Type) where
  points : List (K × K)
  pointAttributes : List (List K)
  outline : List (ℤ × ℤ)
  outlineTags : List Str
  holes : List (K × K)
  regions : List (K × K)
  regionTags : List Str
  regionAreas : List (Option K)
  geo : Option (Ref K)

/-- `Geo_reference(ASCIIFile=fd)`, 362-366 with `geo_reference.py` 248-280; any exception gives `None`. -/
def readRef (c : Codec K) (ls : List Str) : Option (Ref K) :=
  if ((line ls).take 2).map Char.toUpper = "#G".toList then do
    let zone ← readInt (strip (line ls.tail))
    let x ← c.read (strip (line ls.tail.tail))
    let y ← c.read (strip (line ls.tail.tail.tail))
    return Ref.plain zone x y
  else none

/-- `_read_outline`, 260-379. -/
def readOutline (c : Codec K) (ls : List Str) : Option (Outline K) := do
  let (n, _) ← headOf (line ls)
  let (ps, ls) ← readMany (readVertex c) n ls.tail
  let n ← readCount0 (line ls)
  let (ss, ls) ← readMany readSegment n ls.tail
  let n ← readCount0 (line ls)
  let (hs, ls) ← readMany (readPlace c) n ls.tail
  let n ← readCount0 (line ls)
  let (rs, ls) ← readMany (readPlace c) n ls.tail
  let (as, ls) ← readMany (fun l => some (readArea c l)) n ls.tail
  return ⟨ps.map (·.1), ps.map (·.2), ss.map (·.1), ss.map (·.2), hs.map (·.1), rs.map (·.1), rs.map (·.2), as, readRef c ls⟩

/-- The dictionary which is returned, 147-151. -/
def merge (t : Tri K) (o : Outline K) : Dict K :=
  ⟨t.vertices, t.vertexAttributes, t.vertexTitles, t.triangles, some t.triangleTags,
    t.neighbours.map fun n => (some n.1, some n.2.1, some n.2.2), t.segments, t.segmentTags, o.points, o.pointAttributes, o.outline,
    o.outlineTags, o.holes, o.regions, o.regionTags, o.regionAreas, o.geo⟩

/-- `_read_tsh_file`, 144-155. -/
def readLines (c : Codec K) (ls : List Str) : Option (Dict K) := do
  let (t, ls) ← readTriangulation c ls
  let o ← readOutline c ls
  return merge t o

/-- `import_mesh_file` of a `.tsh` file, 85-104. -/
def readTsh (c : Codec K) (text : Str) : Option (Dict K) := readLines c (lines text)

/-! ## Outlines of meshes -/

/-- The outline of a mesh: points, segments between them with tags, holes and regions with tag and greatest area of
triangles. -/
structure User (K : Type) where
  points : List (K × K)
  segments : List ((ℕ × ℕ) × Str)
  holes : List (K × K)
  regions : List ((K × K) × Str × Option K)

/-- The triangulation of a mesh as kept by `Rigid_triangulation`, `mesh.py` 375-401. -/
structure Rigid (K : Type) where
  vertices : List (K × K)
  vertexAttributes : List (List K)
  vertexTitles : List Str
  triangles : List (ℤ × ℤ × ℤ)
  triangleTags : List Str
  neighbours : List (ℤ × ℤ × ℤ)
  segments : List (ℤ × ℤ)
  segmentTags : List Str

/-- A mesh. -/
structure Whole (K : Type) where
  user : User K
  tri : Rigid K
  geo : Ref K

variable [Ring K] [LinearOrder K]

/-- `Mesh2IODict`, `mesh.py` 1946-2062; the points of the outline carry no attributes. -/
def toDict (m : Whole K) : Dict K where
  vertices := m.tri.vertices
  vertexAttributes := some m.tri.vertexAttributes
  vertexTitles := m.tri.vertexTitles
  triangles := m.tri.triangles
  triangleTags := some m.tri.triangleTags
  neighbours := m.tri.neighbours.map fun n => (some n.1, some n.2.1, some n.2.2)
  segments := m.tri.segments
  segmentTags := m.tri.segmentTags
  points := m.user.points
  pointAttributes := m.user.points.map fun _ => []
  outline := m.user.segments.map fun s => ((s.1.1 : ℤ), (s.1.2 : ℤ))
  outlineTags := m.user.segments.map (·.2)
  holes := m.user.holes
  regions := m.user.regions.map (·.1)
  regionTags := m.user.regions.map (·.2.1)
  regionAreas := m.user.regions.map fun r => some (r.2.2.getD (-999))
  geo := some m.geo

/-- A region of a dictionary, `mesh.py` 2129-2142; comparing `None` with a number is an exception. -/
def toRegion (p : K × K) (tag : Str) : Option K → Option ((K × K) × Str × Option K)
  | none => none
  | some a => some (p, tag, if 0 < a then some a else none)

/-- A segment of a dictionary, 2101-2106: both ends must be there and must differ (`assert`, 301). Python also takes
negative positions, counted from the end. -/
def toSegment (nPoints : ℕ) (s : ℤ × ℤ) (tag : Str) : Option ((ℕ × ℕ) × Str) :=
  if 0 ≤ s.1 ∧ s.1 < nPoints ∧ 0 ≤ s.2 ∧ s.2 < nPoints ∧ s.1 ≠ s.2 then some ((s.1.toNat, s.2.toNat), tag) else none

/-- `IOOutline2Mesh` into a new mesh, 2079-2142. -/
def toUser (d : Dict K) : Option (User K) := do
  let segs ← (d.outline.zip d.outlineTags).mapM fun s => toSegment d.points.length s.1 s.2
  let regs ← (d.regions.zip (d.regionTags.zip d.regionAreas)).mapM fun r => toRegion r.1 r.2.1 r.2.2
  return ⟨d.points, segs, d.holes, regs⟩

end Verif.MeshFile
