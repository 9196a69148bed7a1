import Verif.Polygon.Model

/-!
# Model of the structured mesh generators

Sources
* `/repo/anuga/abstract_2d_finite_volumes/mesh_factory.py` 64-136 (`rectangular`), 138-175 (`rectangular_cross`), 177-242
  (`rectangular_cross_python`), 317-461 (`rectangular_periodic`);
* `/repo/anuga/abstract_2d_finite_volumes/mesh_factory_ext.pyx` 9-90 (`rectangular_cross_construct`).

Simplifications: exact field; the numbers of cells are natural numbers; dictionaries are association lists, in which a new key is appended.
-/

namespace Verif.Factory

open Verif.Polygon (Pt)

variable {K : Type*} [Field K]

/-- Points, elements, boundary dictionary. -/
structure Out (K : Type*) where
  points : List (Pt K)
  elems : List (ℕ × ℕ × ℕ)
  boundary : List ((ℕ × ℕ) × String)

/-- The index pairs of two nested loops `for i in range(m): for j in range(n)`. -/
def loop2 (m n : ℕ) : List (ℕ × ℕ) := (List.range m).flatMap fun i => (List.range n).map fun j => (i, j)

/-- One pass of the loop over grid points, `mesh_factory.py` 200-203. -/
def gridStep (d1 d2 : K) (o : K × K) (s : List ((ℕ × ℕ) × ℕ) × List (Pt K)) (c : ℕ × ℕ) : List ((ℕ × ℕ) × ℕ) × List (Pt K) :=
  (s.1 ++ [(c, s.2.length)], s.2 ++ [⟨d1 * c.1 + o.1, d2 * c.2 + o.2⟩])

/-- `vertices[i,j]` -/
def vertex (vs : List ((ℕ × ℕ) × ℕ)) (i j : ℕ) : ℕ := (vs.lookup (i, j)).getD 0

/-- Mean of four points, `(p1 + p2 + p3 + p4)*0.25`. -/
def mean4 (a b c d : Pt K) : Pt K := ⟨(a.x + b.x + c.x + d.x) * (1 / 4), (a.y + b.y + c.y + d.y) * (1 / 4)⟩

/-- `boundary[key] = tag` under a condition. -/
def mark (b : List ((ℕ × ℕ) × String)) (c : Bool) (k e : ℕ) (tag : String) : List ((ℕ × ℕ) × String) := if c then b ++ [((k, e), tag)] else b

/-- One pass of the loop over cells, `mesh_factory.py` 208-239. -/
def crossCell (m n : ℕ) (vs : List ((ℕ × ℕ) × ℕ)) (s : Out K) (c : ℕ × ℕ) : Out K :=
  let i := c.1
  let j := c.2
  let v1 := vertex vs i (j + 1)
  let v2 := vertex vs i j
  let v3 := vertex vs (i + 1) (j + 1)
  let v4 := vertex vs (i + 1) j
  let p := fun v => s.points.getD v ⟨0, 0⟩
  let v5 := s.points.length
  let points := s.points ++ [mean4 (p v1) (p v2) (p v3) (p v4)]
  let b := mark s.boundary (i == 0) s.elems.length 1 "left"
  let e := s.elems ++ [(v2, v5, v1)]
  let b := mark b (j == 0) e.length 1 "bottom"
  let e := e ++ [(v4, v5, v2)]
  let b := mark b (i + 1 == m) e.length 1 "right"
  let e := e ++ [(v3, v5, v4)]
  let b := mark b (j + 1 == n) e.length 1 "top"
  let e := e ++ [(v1, v5, v3)]
  ⟨points, e, b⟩

/-- `rectangular_cross_python`, `mesh_factory.py` 177-242. -/
def crossPython (m n : ℕ) (len1 len2 : K) (o : K × K) : Out K :=
  let d1 := len1 / m
  let d2 := len2 / n
  let g := (loop2 (m + 1) (n + 1)).foldl (gridStep d1 d2 o) ([], [])
  (loop2 m n).foldl (crossCell m n g.1) ⟨g.2, [], []⟩

/-- State of the compiled version: arrays written in place, and the two counters. -/
structure CSt (K : Type*) where
  vertices : ℕ → ℕ → ℕ
  points : List (Pt K)
  numPoints : ℕ
  elems : List (ℕ × ℕ × ℕ)
  numElems : ℕ
  boundary : List ((ℕ × ℕ) × String)

/-- One pass of the first loop, `mesh_factory_ext.pyx` 30-35. -/
def cGrid (d1 d2 : K) (o : K × K) (s : CSt K) (c : ℕ × ℕ) : CSt K :=
  { s with
    vertices := fun i j => if i = c.1 ∧ j = c.2 then s.numPoints else s.vertices i j
    points := s.points.set s.numPoints ⟨c.1 * d1 + o.1, c.2 * d2 + o.2⟩
    numPoints := s.numPoints + 1 }

/-- One pass of the second loop, `mesh_factory_ext.pyx` 39-88. -/
def cCell (m n : ℕ) (s : CSt K) (c : ℕ × ℕ) : CSt K :=
  let i := c.1
  let j := c.2
  let v1 := s.vertices i (j + 1)
  let v2 := s.vertices i j
  let v3 := s.vertices (i + 1) (j + 1)
  let v4 := s.vertices (i + 1) j
  let p := fun v => s.points.getD v ⟨0, 0⟩
  let v5 := s.numPoints
  let k := s.numElems
  let b := mark s.boundary (i == 0) k 1 "left"
  let b := mark b (j == 0) (k + 1) 1 "bottom"
  let b := mark b (i + 1 == m) (k + 2) 1 "right"
  let b := mark b (j + 1 == n) (k + 3) 1 "top"
  { s with
    points := s.points.set s.numPoints (mean4 (p v1) (p v2) (p v3) (p v4))
    numPoints := s.numPoints + 1
    elems := (((s.elems.set k (v2, v5, v1)).set (k + 1) (v4, v5, v2)).set (k + 2) (v3, v5, v4)).set (k + 3) (v1, v5, v3)
    numElems := k + 4
    boundary := b }

/-- `rectangular_cross`, `mesh_factory.py` 138-175, with arrays of the given initial content (`num.empty`). -/
def crossC (m n : ℕ) (len1 len2 : K) (o : K × K) (points : List (Pt K)) (elems : List (ℕ × ℕ × ℕ)) : Out K :=
  let d1 := len1 / m
  let d2 := len2 / n
  let s := (loop2 (m + 1) (n + 1)).foldl (cGrid d1 d2 o) ⟨fun _ _ => 0, points, 0, elems, 0, []⟩
  let s := (loop2 m n).foldl (cCell m n) s
  ⟨s.points, s.elems, s.boundary⟩

/-- `index(i,j)`, `mesh_factory.py` 92-93, 355-356. -/
def index (n i j : ℕ) : ℕ := j + i * (n + 1)

/-- The array of grid points, `mesh_factory.py` 98-103, 372-377. -/
def gridArray (m n : ℕ) (d1 d2 : K) (o : K × K) : List (Pt K) :=
  (loop2 (m + 1) (n + 1)).foldl (fun p c => p.set (index n c.1 c.2) ⟨c.1 * d1 + o.1, c.2 * d2 + o.2⟩) (List.replicate ((m + 1) * (n + 1)) ⟨0, 0⟩)

/-- One pass of the loop over cells, `mesh_factory.py` 113-134: elements, boundary, `nt + 1`. -/
def rectCell (m n : ℕ) (s : List (ℕ × ℕ × ℕ) × List ((ℕ × ℕ) × String) × ℕ) (c : ℕ × ℕ) : List (ℕ × ℕ × ℕ) × List ((ℕ × ℕ) × String) × ℕ :=
  let i := c.1
  let j := c.2
  let i1 := index n i (j + 1)
  let i2 := index n i j
  let i3 := index n (i + 1) (j + 1)
  let i4 := index n (i + 1) j
  let nt := s.2.2
  let b := mark s.2.1 (i + 1 == m) nt 2 "right"
  let b := mark b (j == 0) nt 1 "bottom"
  let e := s.1.set nt (i4, i3, i2)
  let nt := nt + 1
  let b := mark b (i == 0) nt 2 "left"
  let b := mark b (j + 1 == n) nt 1 "top"
  (e.set nt (i1, i2, i3), b, nt + 1)

/-- `rectangular`, `mesh_factory.py` 64-136. -/
def rectangular (m n : ℕ) (len1 len2 : K) (o : K × K) : Out K :=
  let r := (loop2 m n).foldl (rectCell m n) (List.replicate (2 * m * n) (0, 0, 0), [], 0)
  ⟨gridArray m n (len1 / m) (len2 / n) o, r.1, r.2.1⟩

/-- State of the loop of `rectangular_periodic`: elements, boundary, the four lists of triangles. -/
structure PSt where
  elems : List (ℕ × ℕ × ℕ)
  boundary : List ((ℕ × ℕ) × String)
  gl : List ℕ
  fl : List ℕ
  gr : List ℕ
  fr : List ℕ

/-- `if cond: l.append(x)` -/
def push (l : List ℕ) (c : Bool) (x : ℕ) : List ℕ := if c then l ++ [x] else l

/-- One pass of the loop, `mesh_factory.py` 395-448. -/
def periodicCell (m n : ℕ) (s : PSt) (c : ℕ × ℕ) : PSt :=
  let i := c.1
  let j := c.2
  let i1 := index n i (j + 1)
  let i2 := index n i j
  let i3 := index n (i + 1) (j + 1)
  let i4 := index n (i + 1) j
  let lo := 2 * (j + i * n)
  let up := 2 * (j + i * n) + 1
  let b := mark s.boundary (i + 1 == m) lo 2 "right"
  let b := mark b (j == 0) lo 1 "bottom"
  let b := mark b (i == 0) up 2 "left"
  let b := mark b (j + 1 == n) up 1 "top"
  ⟨(s.elems.set lo (i4, i3, i2)).set up (i1, i2, i3), b,
    push (push s.gl (i == 0) lo) (i == 0) up,
    push (push s.fl (i == 1) lo) (i == 1) up,
    push (push s.gr (i + 1 == m) lo) (i + 1 == m) up,
    push (push s.fr (i + 2 == m) lo) (i + 2 == m) up⟩

/-- `rectangular_periodic`, `mesh_factory.py` 317-461: mesh, full triangles sent, ghost triangles receiving. -/
def periodic (mg n : ℕ) (len1 len2 : K) (o : K × K) : Out K × List ℕ × List ℕ :=
  let m := mg + 2
  let s := (loop2 m n).foldl (periodicCell m n) ⟨List.replicate (2 * m * n) (0, 0, 0), [], [], [], [], []⟩
  (⟨gridArray m n (len1 / mg) (len2 / n) (o.1 + -1 / mg * len1, o.2), s.elems, s.boundary⟩, s.fl ++ s.fr, s.gr ++ s.gl)

end Verif.Factory
