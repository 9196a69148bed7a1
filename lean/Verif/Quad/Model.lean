import Verif.Polygon.Model

/-!
# Model of the two spatial indexes

Sources
* `/repo/anuga/geometry/aabb.py` 28-134 and `/repo/anuga/geometry/quad.py` 20-179: boxes and the Python tree of boxes;
* `/repo/anuga/utilities/quad_tree.c` 26-95, 103-294, 302-497: the tree of triangles used for fitting and interpolation;
* `/repo/anuga/fit_interpolate/fitsmooth.c` 143-173 and `fitsmooth_ext.pyx` 187-223: its construction and use;
* `/repo/anuga/pmesh/mesh_quadtree.py` 59-64: the extents of its root.

Simplifications
* exact ordered field, `sqrt` is a parameter;
* insertion recurses on newly made cells, so it takes the available stack depth as an argument and reports exhaustion (Python's
  `RecursionError`, a crash in C);
* parent pointers are left out (only `get_siblings` reads them).
-/

namespace Verif.Quad

open Verif.Polygon (Pt)

variable {K : Type*} [Field K] [LinearOrder K]

/-! ## Boxes -/

/-- `AABB`. -/
structure Box (K : Type*) where
  xmin : K
  xmax : K
  ymin : K
  ymax : K
  deriving DecidableEq

/-- `AABB(list of points)`, `aabb.py` 35-43 with `include` (119-134). -/
def Box.grow1 (b : Box K) (p : Pt K) : Box K :=
  let xmin := if p.x < b.xmin then p.x else b.xmin
  let xmax := if p.x > b.xmax then p.x else b.xmax
  let ymin := if p.y < b.ymin then p.y else b.ymin
  let ymax := if p.y > b.ymax then p.y else b.ymax
  ⟨xmin, xmax, ymin, ymax⟩

/-- `include`, `aabb.py` 119-134. -/
def Box.include (b : Box K) (ps : List (Pt K)) : Box K := ps.foldl Box.grow1 b

/-- `AABB(points)`, `aabb.py` 42-43. -/
def Box.ofPoints (p : Pt K) (ps : List (Pt K)) : Box K := Box.include ⟨p.x, p.x, p.y, p.y⟩ ps

/-- `grow`, `aabb.py` 57-64: the lower sides move by the already enlarged size. -/
def Box.grow (b : Box K) (amount : K) : Box K :=
  let ymax := b.ymax + (b.ymax - b.ymin) * amount
  let xmax := b.xmax + (b.xmax - b.xmin) * amount
  let ymin := b.ymin - (ymax - b.ymin) * amount
  let xmin := b.xmin - (xmax - b.xmin) * amount
  ⟨xmin, xmax, ymin, ymax⟩

/-- `SPLIT_BORDER_RATIO`, `aabb.py` 12; `border`, `quad_tree.c` 360. -/
def border : K := 55 / 100

/-- `split`, `aabb.py` 72-96; `none` is the failed assertion at 83. -/
def Box.split (b : Box K) : Option (Box K × Box K) :=
  let width := b.xmax - b.xmin
  let height := b.ymax - b.ymin
  if width ≥ 0 ∧ height ≥ 0 then
    if width > height then
      some (⟨b.xmin, b.xmin + width * border, b.ymin, b.ymax⟩, ⟨b.xmax - width * border, b.xmax, b.ymin, b.ymax⟩)
    else
      some (⟨b.xmin, b.xmax, b.ymin, b.ymin + height * border⟩, ⟨b.xmin, b.xmax, b.ymax - height * border, b.ymax⟩)
  else none

/-- `self.is_trivial_in(test)`, `aabb.py` 99-109. -/
def Box.trivialIn (self test : Box K) : Bool :=
  if test.xmin < self.xmin ∨ test.xmax > self.xmax then false
  else if test.ymin < self.ymin ∨ test.ymax > self.ymax then false
  else true

/-- `contains`, `aabb.py` 111-117. -/
def Box.contains (b : Box K) (p : Pt K) : Bool :=
  decide (b.xmin ≤ p.x ∧ p.x ≤ b.xmax) && decide (b.ymin ≤ p.y ∧ p.y ≤ b.ymax)

/-! ## The Python tree -/

/-- Exceptions of an insertion. -/
inductive Err where
  | recursion
  | assertion
  deriving DecidableEq, Repr

/-- `Cell`, `quad.py` 20-38: `children` is `None` or a list of two cells. -/
inductive Cell (K D : Type*) where
  | flat (extents : Box K) (leaves : List (Box K × D))
  | split (extents : Box K) (leaves : List (Box K × D)) (c1 c2 : Cell K D)

variable {D : Type*}

/-- `self.extents`. -/
def Cell.extents : Cell K D → Box K
  | .flat e _ => e
  | .split e _ _ _ => e

/-- `insert_item`, `quad.py` 62-103, with the given depth of recursion available. -/
def insertItem : ℕ → Cell K D → Box K × D → Except Err (Cell K D)
  | 0, _, _ => .error .recursion
  | f + 1, .split e ls c1 c2, new =>
    if c1.extents.trivialIn new.1 then
      match insertItem f c1 new with
      | .ok c => .ok (.split e ls c c2)
      | .error x => .error x
    else if c2.extents.trivialIn new.1 then
      match insertItem f c2 new with
      | .ok c => .ok (.split e ls c1 c)
      | .error x => .error x
    else .ok (.split e (ls ++ [new]) c1 c2)
  | f + 1, .flat e ls, new =>
    match e.split with
    | none => .error .assertion
    | some (r1, r2) =>
      if r1.trivialIn new.1 then
        match insertItem f (.flat r1 []) new with
        | .ok c => .ok (.split e ls c (.flat r2 []))
        | .error x => .error x
      else if r2.trivialIn new.1 then
        match insertItem f (.flat r2 []) new with
        | .ok c => .ok (.split e ls (.flat r1 []) c)
        | .error x => .error x
      else .ok (.flat e (ls ++ [new]))

/-- `insert` with a list, `quad.py` 50-59. -/
def insertAll (fuel : ℕ) : Cell K D → List (Box K × D) → Except Err (Cell K D)
  | c, [] => .ok c
  | c, new :: rest =>
    match insertItem fuel c new with
    | .ok c' => insertAll fuel c' rest
    | .error x => .error x

/-- `retrieve`, `quad.py` 106-119. -/
def Cell.retrieve : Cell K D → List (Box K × D)
  | .flat _ ls => ls
  | .split _ ls c1 c2 => ls ++ (c1.retrieve ++ c2.retrieve)

/-- `count`, `quad.py` 121-134. -/
def Cell.count : Cell K D → ℕ
  | .flat _ ls => ls.length
  | .split _ ls c1 c2 => ls.length + c1.count + c2.count

/-- `test_leaves`, `quad.py` 165-179 (the cell returned with each item is left out). -/
def testLeaves (ls : List (Box K × D)) (p : Pt K) : List D := (ls.filter fun l => l.1.contains p).map Prod.snd

/-- `search`, `quad.py` 148-162. -/
def Cell.search : Cell K D → Pt K → List D
  | .flat _ ls, p => testLeaves ls p
  | .split _ ls c1 c2, p =>
    testLeaves ls p ++ ((if c1.extents.contains p then c1.search p else []) ++
      (if c2.extents.contains p then c2.search p else []))

/-! ## The tree of triangles -/

/-- `triangle`, `quad_tree.h`: index and corners (the normals are recomputed in `sigma`). -/
structure Tri (K : Type*) where
  index : ℕ
  a : Pt K
  b : Pt K
  c : Pt K
  deriving DecidableEq

/-- `__point_on_line`, `quad_tree.c` 103-171. -/
def onLine (rtol atol : K) (p a b : Pt K) : Bool :=
  let a0 := p.x - a.x
  let a1 := p.y - a.y
  let b0 := b.x - a.x
  let b1 := b.y - a.y
  let nominator := |a1 * b0 + -a0 * b1|
  let denominator := b0 * b0 + b1 * b1
  let isParallel := if denominator = 0 then decide (nominator ≤ atol) else decide (nominator / denominator ≤ rtol)
  isParallel && (decide (a0 * b0 + a1 * b1 ≥ 0) && decide (a0 * a0 + a1 * a1 ≤ denominator))

/-- `__is_inside_triangle`, `quad_tree.c` 173-252, with `closed = 1`. -/
def insideTri (rtol atol : K) (p t0 t1 t2 : Pt K) : Bool :=
  if p.x < t0.x ∧ p.x < t1.x ∧ p.x < t2.x then false
  else if p.x > t0.x ∧ p.x > t1.x ∧ p.x > t2.x then false
  else if p.y < t0.y ∧ p.y < t1.y ∧ p.y < t2.y then false
  else if p.y > t0.y ∧ p.y > t1.y ∧ p.y > t2.y then false
  else
    let v0x := t2.x - t0.x
    let v0y := t2.y - t0.y
    let v1x := t1.x - t0.x
    let v1y := t1.y - t0.y
    let a00 := v0x * v0x + v0y * v0y
    let a01 := v0x * v1x + v0y * v1y
    let a10 := a01
    let a11 := v1x * v1x + v1y * v1y
    let denom := a11 * a00 - a01 * a10
    let vx := p.x - t0.x
    let vy := p.y - t0.y
    let b0 := v0x * vx + v0y * vy
    let b1 := v1x * vx + v1y * vy
    let alpha := (b0 * a11 - b1 * a01) / denom
    let beta := (b1 * a00 - b0 * a10) / denom
    if |denom| > 0 ∧ alpha > 0 ∧ beta > 0 ∧ alpha + beta < 1 then true
    else onLine rtol atol p t0 t1 || (onLine rtol atol p t1 t2 || onLine rtol atol p t2 t0)

/-- `triangle_contains_point`, `quad_tree.c` 254-294. -/
def Tri.test (t : Tri K) (p : Pt K) : Bool := insideTri (1 / 10 ^ 12) (1 / 10 ^ 12) p t.a t.b t.c

/-- `quad_tree`: a node with its triangles in order of insertion, `count`, and no children or four of them. -/
inductive Tree (K : Type*) where
  | tip (box : Box K) (leaves : List (Tri K)) (count : ℕ)
  | fork (box : Box K) (leaves : List (Tri K)) (count : ℕ) (q1 q2 q3 q4 : Tree K)

/-- `new_quad_tree`, `quad_tree.c` 302-315. -/
def Tree.new (b : Box K) : Tree K := .tip b [] 0

/-- `trivial_contain_split_point`, `quad_tree.c` 429-453: quadrant 1 to 4, or 0 on a middle axis. -/
def quadOf (b : Box K) (p : Pt K) : ℕ :=
  let midx := (b.xmin + b.xmax) / 2
  let midy := (b.ymin + b.ymax) / 2
  if midx < p.x then
    if midy < p.y then 1 else if midy > p.y then 4 else 0
  else if midx > p.x then
    if midy < p.y then 2 else if midy > p.y then 3 else 0
  else 0

/-- `trivial_contain_split`, `quad_tree.c` 418-427. -/
def quadOfTri (b : Box K) (t : Tri K) : ℕ :=
  let p1 := quadOf b t.a
  let p2 := quadOf b t.b
  let p3 := quadOf b t.c
  if p1 = p2 ∧ p2 = p3 then p1 else 0

/-- Extents of child `q` (1 to 4), `quad_tree_make_children`, `quad_tree.c` 352-373. -/
def childBox (b : Box K) (q : ℕ) : Box K :=
  let width := b.xmax - b.xmin
  let height := b.ymax - b.ymin
  match q with
  | 1 => ⟨b.xmax - width * border, b.xmax, b.ymax - height * border, b.ymax⟩
  | 2 => ⟨b.xmin, b.xmin + width * border, b.ymax - height * border, b.ymax⟩
  | 3 => ⟨b.xmin, b.xmin + width * border, b.ymin, b.ymin + height * border⟩
  | _ => ⟨b.xmax - width * border, b.xmax, b.ymin, b.ymin + height * border⟩

/-- `quad_tree_insert_triangle`, `quad_tree.c` 388-415, with the given depth of recursion; `none` is the exhausted stack. A node
without children in which the triangle fits a quadrant is split first (401-405). -/
def insertTri : ℕ → Tree K → Tri K → Option (Tree K)
  | 0, _, _ => none
  | f + 1, .fork b ls n q1 q2 q3 q4, t =>
    match quadOfTri b t with
    | 0 => some (.fork b (ls ++ [t]) (n + 1) q1 q2 q3 q4)
    | 1 => (insertTri f q1 t).map fun q => .fork b ls (n + 1) q q2 q3 q4
    | 2 => (insertTri f q2 t).map fun q => .fork b ls (n + 1) q1 q q3 q4
    | 3 => (insertTri f q3 t).map fun q => .fork b ls (n + 1) q1 q2 q q4
    | _ => (insertTri f q4 t).map fun q => .fork b ls (n + 1) q1 q2 q3 q
  | f + 1, .tip b ls n, t =>
    match quadOfTri b t with
    | 0 => some (.tip b (ls ++ [t]) (n + 1))
    | 1 => (insertTri f (.new (childBox b 1)) t).map fun q =>
        .fork b ls (n + 1) q (.new (childBox b 2)) (.new (childBox b 3)) (.new (childBox b 4))
    | 2 => (insertTri f (.new (childBox b 2)) t).map fun q =>
        .fork b ls (n + 1) (.new (childBox b 1)) q (.new (childBox b 3)) (.new (childBox b 4))
    | 3 => (insertTri f (.new (childBox b 3)) t).map fun q =>
        .fork b ls (n + 1) (.new (childBox b 1)) (.new (childBox b 2)) q (.new (childBox b 4))
    | _ => (insertTri f (.new (childBox b 4)) t).map fun q =>
        .fork b ls (n + 1) (.new (childBox b 1)) (.new (childBox b 2)) (.new (childBox b 3)) q

/-- `_build_quad_tree`, `fitsmooth.c` 143-173: the loop inserting the triangles. -/
def buildTree (fuel : ℕ) : Tree K → List (Tri K) → Option (Tree K)
  | t, [] => some t
  | t, x :: xs =>
    match insertTri fuel t x with
    | none => none
    | some t' => buildTree fuel t' xs

/-- `search`, `quad_tree.c` 471-497, with `search_triangles_of_quad_tree` (455-466). -/
def Tree.search : Tree K → Pt K → Option (Tri K)
  | .tip _ ls _, p => ls.find? fun t => t.test p
  | .fork b ls _ q1 q2 q3 q4, p =>
    match ls.find? fun t => t.test p with
    | some t => some t
    | none =>
      match quadOf b p with
      | 0 => none
      | 1 => q1.search p
      | 2 => q2.search p
      | 3 => q3.search p
      | _ => q4.search p

/-- `items_in_tree`, `fitsmooth_ext.pyx` 217-223. -/
def Tree.items : Tree K → ℕ
  | .tip _ _ n => n
  | .fork _ _ n _ _ _ _ => n

/-- A side normal of `new_triangle`, `quad_tree.c` 39-47: normal of the side from `p` to `q`, turned away from `r`. -/
def normal (sq : K → K) (p q r : Pt K) : K × K :=
  let ny := q.x - p.x
  let nx := -(q.y - p.y)
  let dot := nx * nx + ny * ny
  let nx' := nx / sq dot
  let ny' := ny / sq dot
  if nx' * (r.x - q.x) + ny' * (r.y - q.y) > 0 then (-nx', -ny') else (nx', ny')

/-- One entry of `calculate_sigma`, `quad_tree.c` 88-93: corner `v` opposite the side from `s` to `e`. -/
def sigmaAt (sq : K → K) (v s e p : Pt K) : K :=
  let n := normal sq s e v
  ((p.x - s.x) * n.1 + (p.y - s.y) * n.2) / ((v.x - s.x) * n.1 + (v.y - s.y) * n.2)

/-- `calculate_sigma`, `quad_tree.c` 82-95. -/
def sigma (sq : K → K) (t : Tri K) (p : Pt K) : K × K × K :=
  (sigmaAt sq t.a t.b t.c p, sigmaAt sq t.b t.c t.a p, sigmaAt sq t.c t.a t.b p)

/-- `search_fast`, `mesh_quadtree.py` 87-126 with `individual_tree_search`, `fitsmooth_ext.pyx` 187-215. -/
def searchFast (sq : K → K) (t : Tree K) (p : Pt K) : Bool × (K × K × K) × ℤ :=
  match t.search p with
  | some x => (true, sigma sq x p, x.index)
  | none => (false, (-1, -1, -1), -10)

/-- Corners of all triangles. -/
def corners (ts : List (Tri K)) : List (Pt K) := ts.flatMap fun t => [t.a, t.b, t.c]

/-- `set_extents`, `mesh_quadtree.py` 59-64, with `get_extent`, `general_mesh.py` 856-872. -/
def meshExtents (p : Pt K) (ps : List (Pt K)) : Box K := (Box.ofPoints p ps).grow (1001 / 1000)

/-- `MeshQuadtree(mesh)`, `mesh_quadtree.py` 66-72, for a mesh with at least one triangle. -/
def meshTree (fuel : ℕ) (t : Tri K) (ts : List (Tri K)) : Option (Tree K) :=
  buildTree fuel (.new (meshExtents t.a ([t.b, t.c] ++ corners ts))) (t :: ts)

end Verif.Quad
