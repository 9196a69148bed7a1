import Verif.Basic
import Mathlib.Algebra.Order.Floor.Defs
import Mathlib.Algebra.Order.Floor.Ring
import Mathlib.Algebra.Order.Group.Abs
import Mathlib.Data.List.Dedup

/-!
# Model of the choice of points at which a tsunami model has to be recorded

Sources
* `/repo/anuga/file/urs.py` 220-267 (`_calculate_boundary_points`), 270-328 (`points_needed`), 332-353 (`keep_point`).

Simplifications
* exact numbers in an ordered field; conversion from latitude and longitude to metres (`utm`, `redfearn`) and back (`geo`, through
  `Geospatial_data`) are parameters; the set of points is a list without repetitions.
-/

namespace Verif.Urs

variable {K : Type} [Field K] [LinearOrder K] [FloorRing K]

/-- `round` (urs.py 298, 301, 305, 308): to the nearest whole number, to the even one of two. -/
def roundEven (x : K) : ℤ :=
  if x - ⌊x⌋ < 1 / 2 then ⌊x⌋
  else if 1 / 2 < x - ⌊x⌋ then ⌊x⌋ + 1
  else if ⌊x⌋ % 2 = 0 then ⌊x⌋ else ⌊x⌋ + 1

/-- `range(a, b + 1)` (urs.py 314-315). -/
def upTo (a b : ℤ) : List ℤ := (List.range (b + 1 - a).toNat).map fun (i : ℕ) => a + (i : ℤ)

/-- Conversions (urs.py 281-284, 339): from latitude and longitude to metres, and back. -/
structure Maps (K : Type) where
  utm : K → K → K × K
  geo : K × K → K × K

/-- (urs.py 220-224) The model whose results are to be recorded: lower left corner, spacing and size of its grid. -/
structure Grid (K : Type) where
  lat : K
  long : K
  spacing : K
  lats : ℕ
  longs : ℕ

/-- `keep_point`, 332-353. -/
def keep (m : Maps K) (lat long : K) (a b : K × K) (far : K) : Bool :=
  let p := m.utm lat long
  let dx := b.1 - a.1
  let dy := b.2 - a.2
  let num := dx * dx + dy * dy
  if num = 0 then true else decide (|dx * (a.2 - p.2) - (a.1 - p.1) * dy| / num ≤ far)

/-- `points_needed`, 285-309: first and last number of rows or columns from the coordinates of the two ends. -/
def rowsOf (g : Grid K) (origin u v : K) : List ℤ :=
  let buffer := 1415 / 1000 * g.spacing
  upTo (roundEven ((min u v - buffer - origin) / g.spacing + 1 / 2)) (roundEven ((max u v + buffer - origin) / g.spacing))

/-- `points_needed`, 270-328. The size of the grid is not used. -/
def pointsNeeded (m : Maps K) (g : Grid K) (a b : K × K) : List (K × K) :=
  let p := m.geo a
  let q := m.geo b
  (rowsOf g g.lat p.1 q.1).flatMap fun (i : ℤ) => (rowsOf g g.long p.2 q.2).filterMap fun (j : ℤ) =>
    let lat := g.lat + i * g.spacing
    let long := g.long + j * g.spacing
    if keep m lat long a b (1571474112 / 10000 * g.spacing) then some (lat, long) else none

/-- `_calculate_boundary_points`, 242: the sides of a polygon; the first one goes from the last corner to the first. -/
def sides (poly : List (K × K)) : List ((K × K) × (K × K)) :=
  match poly with
  | [] => []
  | a :: l => ((a :: l).getLastD a, a) :: (a :: l).zip l

/-- `_calculate_boundary_points`, 220-267; `none` is an exception. -/
def boundaryPoints (m : Maps K) (g : Grid K) (poly : List (K × K)) : Option (List (K × K)) :=
  if g.spacing = 0 then none
  else
    let l := ((sides poly).flatMap fun s => pointsNeeded m g s.1 s.2).dedup
    if l = [] then none else some l

end Verif.Urs
