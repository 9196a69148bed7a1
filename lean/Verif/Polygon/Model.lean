import Verif.Basic

/-!
# Model of the polygon routines

Sources
* `/repo/anuga/geometry/polygon.c` 22-93 (`dist`, `__point_on_line`), 318-560 (`__polygon_overlap`, `__line_intersect`),
  563-640 (`__is_inside_triangle`), 642-728 (`__separate_points_by_polygon`)
* `/repo/anuga/geometry/polygon.py` 53-104 (collinear table), 107-180 (`intersection`), 224-312 (overlap routines),
  457-700 (inside/outside), 703-738 (`polygon_area`)

Simplifications
* exact ordered field, `sqrt` is a parameter;
* a polygon without vertices (for which the C code reads beyond its array) is never inside;
* conversion of the arguments (`ensure_numeric`, `ensure_absolute`) is left out.
-/

namespace Verif.Polygon

variable {K : Type*} [Field K] [LinearOrder K]

/-- A point `[x, y]`. -/
structure Pt (K : Type*) where
  x : K
  y : K
  deriving DecidableEq

/-- `dist`, `polygon.c` 23-27. -/
def dist (sq : K → K) (x y : K) : K := sq (x * x + y * y)

/-- `__point_on_line`, `polygon.c` 30-93. -/
def pointOnLine (sq : K → K) (rtol atol : K) (p a b : Pt K) : Bool :=
  let a0 := p.x - a.x
  let a1 := p.y - a.y
  let b0 := b.x - a.x
  let b1 := b.y - a.y
  let nominator := |a1 * b0 + -a0 * b1|
  let denominator := b0 * b0 + b1 * b1
  let isParallel := if denominator = 0 then decide (nominator ≤ atol) else decide (nominator / denominator ≤ rtol)
  isParallel && (decide (a0 * b0 + a1 * b1 ≥ -(1 / 10 ^ 308)) && decide (-(1 / 10 ^ 15) ≤ dist sq b0 b1 - dist sq a0 a1))

/-- The ray test for one edge, `polygon.c` 706-710. -/
def crosses (p a b : Pt K) : Bool :=
  decide ((a.y < p.y ∧ b.y ≥ p.y ∨ b.y < p.y ∧ a.y ≥ p.y) ∧
    a.x + (p.y - a.y) / (b.y - a.y) * (b.x - a.x) < p.x)

/-- Edges `(i, (i+1) % N)` in the order visited. -/
def edges (poly : List (Pt K)) : List (Pt K × Pt K) := poly.zip (poly.rotate 1)

/-- The loop over edges, `polygon.c` 688-713, with its `break`. -/
def scan (sq : K → K) (closed : Bool) (p : Pt K) : List (Pt K × Pt K) → Bool → Bool
  | [], inside => inside
  | (a, b) :: es, inside =>
    if pointOnLine sq 0 0 p a b then closed
    else scan sq closed p es (if crosses p a b then !inside else inside)

/-- `minpx, maxpx, minpy, maxpy`, `polygon.c` 656-668. -/
structure Box (K : Type*) where
  minx : K
  maxx : K
  miny : K
  maxy : K

def growBox (b : Box K) (v : Pt K) : Box K :=
  ⟨if v.x < b.minx then v.x else b.minx, if v.x > b.maxx then v.x else b.maxx,
    if v.y < b.miny then v.y else b.miny, if v.y > b.maxy then v.y else b.maxy⟩

/-- The variable `inside` after the treatment of one point, `polygon.c` 677-714. -/
def insideFlag (sq : K → K) (closed : Bool) (poly : List (Pt K)) (p : Pt K) : Bool :=
  match poly with
  | [] => false
  | v :: _ =>
    let b := poly.foldl growBox ⟨v.x, v.x, v.y, v.y⟩
    if p.x > b.maxx ∨ p.x < b.minx ∨ p.y > b.maxy ∨ p.y < b.miny then false
    else scan sq closed p (edges poly) false

/-- Index array and the two write positions. -/
structure Fill where
  indices : List ℕ
  inside : ℤ
  outside : ℤ

/-- One pass of the main loop: `indices[inside_index] = k` or `indices[outside_index] = k`, `polygon.c` 715-722 (also
`__polygon_overlap` and `__line_intersect`). -/
def fillStep (test : ℕ → Bool) (s : Fill) (k : ℕ) : Fill :=
  if test k then ⟨s.indices.set s.inside.toNat k, s.inside + 1, s.outside⟩
  else ⟨s.indices.set s.outside.toNat k, s.inside, s.outside - 1⟩

/-- The main loop over `M` items: index array and count returned. -/
def fill (test : ℕ → Bool) (M : ℕ) : List ℕ × ℕ :=
  let s := (List.range M).foldl (fillStep test) ⟨List.replicate M 0, 0, (M : ℤ) - 1⟩
  (s.indices, s.inside.toNat)

/-- The flag computed for the point number `k`. -/
def flagAt (sq : K → K) (closed : Bool) (pts poly : List (Pt K)) (k : ℕ) : Bool :=
  match pts[k]? with
  | some p => insideFlag sq closed poly p
  | none => false

/-- `separate_points_by_polygon`, `polygon.py` 589-700. -/
def separate (sq : K → K) (closed : Bool) (pts : List (Pt K)) (poly : List (Pt K)) : List ℕ × ℕ :=
  fill (flagAt sq closed pts poly) pts.length

/-- `inside_polygon`, 457-500. -/
def insidePolygon (sq : K → K) (closed : Bool) (pts poly : List (Pt K)) : List ℕ :=
  let r := separate sq closed pts poly
  r.1.take r.2

/-- `outside_polygon`, 520-556. -/
def outsidePolygon (sq : K → K) (closed : Bool) (pts poly : List (Pt K)) : List ℕ :=
  let r := separate sq closed pts poly
  if r.2 = r.1.length then [] else (r.1.drop r.2).reverse

/-- `in_and_outside_polygon`, 559-586. -/
def inAndOutside (sq : K → K) (closed : Bool) (pts poly : List (Pt K)) : List ℕ × List ℕ :=
  let r := separate sq closed pts poly
  if r.2 = r.1.length then (r.1.take r.2, []) else (r.1.take r.2, (r.1.drop r.2).reverse)

/-- Result of the single point tests: `is_inside_polygon`, `is_outside_polygon` raise if given several points. -/
def single (l : List ℕ) : Option Bool :=
  if l.length = 1 then some true else if l.length = 0 then some false else none

/-- `is_inside_polygon`, 440-454. -/
def isInsidePolygon (sq : K → K) (closed : Bool) (p : Pt K) (poly : List (Pt K)) : Option Bool :=
  single (insidePolygon sq closed [p] poly)

/-- `is_outside_polygon`, 503-517. -/
def isOutsidePolygon (sq : K → K) (closed : Bool) (p : Pt K) (poly : List (Pt K)) : Option Bool :=
  single (outsidePolygon sq closed [p] poly)

/-- `__is_inside_triangle`, `polygon.c` 563-640. -/
def isInsideTriangle (sq : K → K) (closed : Bool) (rtol atol : K) (p t0 t1 t2 : Pt K) : Bool :=
  if p.x < t0.x ∧ p.x < t1.x ∧ p.x < t2.x then false
  else if p.x > t0.x ∧ p.x > t1.x ∧ p.x > t2.x then false
  else if p.y < t0.y ∧ p.y < t1.y ∧ p.y < t2.y then false
  else if p.y > t0.y ∧ p.y > t1.y ∧ p.y > t2.y then false
  else
    let v0x := t2.x - t0.x
    let v0y := t2.y - t0.y
    let v1x := t1.x - t0.x
    let v1y := t1.y - t0.y
    let a00 := v0x * v0x + v0y * v0y
    let a01 := v0x * v1x + v0y * v1y
    let a10 := a01
    let a11 := v1x * v1x + v1y * v1y
    let denom := a11 * a00 - a01 * a10
    let vx := p.x - t0.x
    let vy := p.y - t0.y
    let b0 := v0x * vx + v0y * vy
    let b1 := v1x * vx + v1y * vy
    let alpha := (b0 * a11 - b1 * a01) / denom
    let beta := (b1 * a00 - b0 * a10) / denom
    if |denom| > 0 ∧ alpha > 0 ∧ beta > 0 ∧ alpha + beta < 1 then true
    else if closed then
      pointOnLine sq rtol atol p t0 t1 || (pointOnLine sq rtol atol p t1 t2 || pointOnLine sq rtol atol p t2 t0)
    else false

/-- `min` of a coordinate column, as Python's `min`. -/
def minOf (f : Pt K → K) : List (Pt K) → K
  | [] => 0
  | v :: vs => vs.foldl (fun m w => if f w < m then f w else m) (f v)

/-- `polygon_area`, `polygon.py` 703-738. -/
def polygonArea (poly : List (Pt K)) : K :=
  let mx := minOf Pt.x poly
  let my := minOf Pt.y poly
  let q := poly.map (fun v => (⟨v.x - mx, v.y - my⟩ : Pt K))
  |(edges q).foldl (fun s e => s + (e.1.x * e.2.y - e.2.x * e.1.y)) 0 / 2|

/-- Result of `intersection`: status and value, or the internal error. -/
inductive Inter (K : Type*) where
  /-- status 0 -/
  | none0
  /-- status 1 and the point -/
  | point (p : Pt K)
  /-- status 2 and the common segment -/
  | segment (a b : Pt K)
  /-- status 3 -/
  | none3
  /-- status 4 -/
  | none4
  /-- `RuntimeError('INTERNAL ERROR')` of `lines_error` -/
  | error
  /-- failed sanity `assert` -/
  | assertion

/-- The table `collinear_result`, `polygon.py` 84-104. -/
def collinear (p0 p1 p2 p3 : Pt K) : Bool → Bool → Bool → Bool → Inter K
  | false, false, false, false => .none3
  | false, false, false, true => .error
  | false, false, true, false => .error
  | false, false, true, true => .segment p2 p3
  | false, true, false, false => .error
  | false, true, false, true => .segment p3 p1
  | false, true, true, false => .segment p2 p1
  | false, true, true, true => .segment p2 p3
  | true, false, false, false => .error
  | true, false, false, true => .segment p0 p3
  | true, false, true, false => .segment p0 p2
  | true, false, true, true => .segment p2 p3
  | true, true, false, false => .segment p0 p1
  | true, true, false, true => .segment p0 p1
  | true, true, true, false => .segment p0 p1
  | true, true, true, true => .segment p0 p1

/-- `numpy.allclose(a, b, rtol, atol)` for scalars. -/
def allclose (rtol atol a b : K) : Bool := decide (|a - b| ≤ atol + rtol * |b|)

/-- `intersection`, `polygon.py` 107-180; segments `p0 p1` and `p2 p3`. -/
def intersection (sq : K → K) (rtol atol : K) (p0 p1 p2 p3 : Pt K) : Inter K :=
  let denom := (p3.y - p2.y) * (p1.x - p0.x) - (p3.x - p2.x) * (p1.y - p0.y)
  let u0 := (p3.x - p2.x) * (p0.y - p2.y) - (p3.y - p2.y) * (p0.x - p2.x)
  let u1 := (p2.x - p0.x) * (p1.y - p0.y) - (p2.y - p0.y) * (p1.x - p0.x)
  if allclose rtol atol denom 0 then
    if allclose rtol atol u0 0 && allclose rtol atol u1 0 then
      collinear p0 p1 p2 p3 (pointOnLine sq rtol atol p0 p2 p3) (pointOnLine sq rtol atol p1 p2 p3)
        (pointOnLine sq rtol atol p2 p0 p1) (pointOnLine sq rtol atol p3 p0 p1)
    else .none4
  else
    let v0 := u0 / denom
    let v1 := u1 / denom
    let x := p0.x + v0 * (p1.x - p0.x)
    let y := p0.y + v0 * (p1.y - p0.y)
    if !allclose rtol atol x (p2.x + v1 * (p3.x - p2.x)) then .assertion
    else if !allclose rtol atol y (p2.y + v1 * (p3.y - p2.y)) then .assertion
    else if 0 ≤ v0 ∧ v0 ≤ 1 ∧ 0 ≤ v1 ∧ v1 ≤ 1 then .point ⟨x, y⟩
    else .none0

end Verif.Polygon
