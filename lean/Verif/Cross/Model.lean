import Verif.Polygon.PropsInter
import Verif.Polygon.PropsTri

/-!
# Model of cross sections

Sources
* `/repo/anuga/abstract_2d_finite_volumes/neighbour_mesh.py` 1252-1395 (`_get_intersecting_segments`), 1398-1438 (`get_intersecting_segments`),
  1444-1461 (`segment_midpoints`)
* `/repo/anuga/shallow_water/forcing.py` 683-821 (`Cross_section`)
* `/repo/anuga/shallow_water/sww_interrogate.py` 73-136, 138-220, 286-377 (the same from files)

Simplifications
* exact ordered field, `sqrt` is a parameter (see the polygon model, which is used for `intersection` and `is_inside_polygon`);
* the change of origin of the polyline and the cache are left out; the cache is assumed to return what the function would;
* interpolated values are a function of the midpoint (C39 is about that function).
-/

namespace Verif.Cross

open Verif.Polygon

variable {K : Type*} [Field K] [LinearOrder K]

/-- Three rows of `get_vertex_coordinates`. -/
structure Tri (K : Type*) where
  a : Pt K
  b : Pt K
  c : Pt K

/-- `edge_segments`, 1291-1293. -/
def Tri.sides (T : Tri K) : List (Pt K × Pt K) := [(T.a, T.b), (T.b, T.c), (T.c, T.a)]

/-- Insertion of a key into a dictionary. -/
def insertKey {α : Type*} [DecidableEq α] (d : List α) (p : α) : List α := if p ∈ d then d else d ++ [p]

/-- The points an edge adds, 1300-1324; `none` if `intersection` raises. -/
def hits (sq : K → K) (rtol atol : K) (A B U V : Pt K) : Option (List (Pt K)) :=
  match intersection sq rtol atol A B U V with
  | .point p => some [p]
  | .segment p q => some [p, q]
  | .error => none
  | .assertion => none
  | _ => some []

/-- The dictionary `intersections` after the edges, 1297-1324. -/
def collect (sq : K → K) (rtol atol : K) (A B : Pt K) (T : Tri K) : Option (List (Pt K)) :=
  T.sides.foldl (fun d e => d.bind fun l => (hits sq rtol atol A B e.1 e.2).map fun h => h.foldl insertKey l) (some [])

/-- What one triangle contributes, 1286-1352: an error, nothing, or two points. -/
def contribution (sq : K → K) (rtol atol : K) (A B : Pt K) (T : Tri K) : Option (Option (Pt K × Pt K)) :=
  (collect sq rtol atol A B T).bind fun d =>
    if d.length = 1 then
      if isInsidePolygon sq false B [T.a, T.b, T.c] = some true then
        match insertKey d B with
        | [p, q] => some (some (p, q))
        | _ => none
      else if isInsidePolygon sq false A [T.a, T.b, T.c] = some true then
        match insertKey d A with
        | [p, q] => some (some (p, q))
        | _ => none
      else some none
    else
      match d with
      | [] => some none
      | [p, q] => some (some (p, q))
      | _ => none

/-- `Triangle_intersection`, 1226-1236. -/
structure Seg (K : Type*) where
  p : Pt K
  q : Pt K
  normal : K × K
  length : K
  tri : ℕ

/-- Distance of two points, 1362-1365 and 1379-1380. -/
def away (sq : K → K) (p q : Pt K) : K := sq ((p.x - q.x) ^ 2 + (p.y - q.y) ^ 2)

/-- End points in order, 1358-1373. -/
def ordered (sq : K → K) (A : Pt K) (e : Pt K × Pt K) : Pt K × Pt K :=
  if away sq e.2 A < away sq e.1 A then (e.2, e.1) else e

/-- The segment with its attributes, 1376-1388. -/
def mkSeg (sq : K → K) (i : ℕ) (e : Pt K × Pt K) : Seg K :=
  let len := away sq e.2 e.1
  ⟨e.1, e.2, ((e.2.y - e.1.y) / len, -(e.2.x - e.1.x) / len), len, i⟩

/-- The loop over triangles, 1285-1395: `triangle_intersections` maps end points to segments, the first one counts. -/
def scanTriangles (sq : K → K) (rtol atol : K) (A B : Pt K) : ℕ → List (Tri K) → List (Seg K) → Option (List (Seg K))
  | _, [], done => some done
  | i, T :: Ts, done =>
    (contribution sq rtol atol A B T).bind fun r =>
      match r with
      | none => scanTriangles sq rtol atol A B (i + 1) Ts done
      | some e =>
        let s := mkSeg sq i (ordered sq A e)
        if (s.p, s.q) ∈ done.map (fun u => (u.p, u.q)) then scanTriangles sq rtol atol A B (i + 1) Ts done
        else scanTriangles sq rtol atol A B (i + 1) Ts (done ++ [s])

/-- `_get_intersecting_segments`. -/
def lineSegments (sq : K → K) (rtol atol : K) (Ts : List (Tri K)) (A B : Pt K) : Option (List (Seg K)) :=
  scanTriangles sq rtol atol A B 0 Ts []

/-- The loop over the parts of the polyline, 1420-1431. -/
def parts (sq : K → K) (rtol atol : K) (Ts : List (Tri K)) : List (Pt K) → Option (List (Seg K))
  | A :: B :: l => (lineSegments sq rtol atol Ts A B).bind fun s => (parts sq rtol atol Ts (B :: l)).map fun r => s ++ r
  | _ => some []

/-- `get_intersecting_segments`, 1398-1438. -/
def segments (sq : K → K) (rtol atol : K) (Ts : List (Tri K)) (line : List (Pt K)) : Option (List (Seg K)) :=
  if line.length ≥ 2 then (parts sq rtol atol Ts line).bind fun s => if s.length > 0 then some s else none
  else none

/-- `segment_midpoints`, 1444-1461. -/
def Seg.mid (s : Seg K) : Pt K := ⟨(s.p.x + s.q.x) / 2, (s.p.y + s.q.y) / 2⟩

/-- `get_flow_through_cross_section`, `forcing.py` 727-753, `sww_interrogate.py` 118-131: loop over interpolated values and segments. -/
def sumFlow (l : List ((K × K) × Seg K)) : K :=
  l.foldl (fun total e => total + (e.1.1 * e.2.normal.1 + e.1.2 * e.2.normal.2) * e.2.length) 0

/-- Flow through given segments with momentum as a function of place. -/
def flow (m : Pt K → K × K) (ss : List (Seg K)) : K := sumFlow ((ss.map fun s => m s.mid).zip ss)

/-- `get_flow_through_multiple_cross_sections`, `sww_interrogate.py` 180-217 at one time: `values` belong to the midpoints of all sections in a row,
`base` counts those already used. -/
def flows (values : List (K × K)) : ℕ → List (List (Seg K)) → List K
  | _, [] => []
  | base, ss :: rest => sumFlow ((values.drop base).zip ss) :: flows values (base + ss.length) rest

/-- Values at a midpoint. -/
structure Val (K : Type*) where
  z : K
  w : K
  uh : K
  vh : K

/-- `kind`. -/
inductive Kind | specific | total
  deriving DecidableEq

/-- Energy head at one segment, `forcing.py` 795-813. -/
def head (g epsilon h0 : K) (kind : Kind) (v : Val K) : K :=
  let h := v.w - v.z
  let u := if h > epsilon then v.uh / (h + h0 / h) else 0
  let w := if h > epsilon then v.vh / (h + h0 / h) else 0
  let kinetic := 1 / 2 * (u * u + w * w) / g
  match kind with
  | .specific => h + kinetic
  | .total => v.w + kinetic

/-- `get_energy_through_cross_section`, `forcing.py` 756-821, `sww_interrogate.py` 333-375. -/
def energy (g epsilon h0 : K) (kind : Kind) (val : Pt K → Val K) (ss : List (Seg K)) : K :=
  let len := ss.foldl (fun t s => t + s.length) 0
  ss.foldl (fun e s => e + head g epsilon h0 kind (val s.mid) * (s.length / len)) 0

end Verif.Cross
