import Verif.Basic
import Mathlib.Analysis.SpecialFunctions.Pow.Real
import Mathlib.Analysis.SpecialFunctions.Trigonometric.Basic
import Mathlib.Analysis.Real.Sqrt
import Mathlib.Algebra.Order.Floor.Ring
import Mathlib.Algebra.Order.Archimedean.Real.Basic

/-!
# Model of the projection of latitudes and longitudes

Sources
* `/repo/anuga/coordinate_transforms/redfearn.py` 13-38 (degrees, minutes, seconds), 40-191 (`redfearn`), 194-258 (`convert_from_latlon_to_utm`);
* `/repo/anuga/coordinate_transforms/geo_reference.py` 447-457 (`reconcile_zones`, zone);
* `/repo/anuga/coordinate_transforms/lat_long_UTM_conversion.py` 63-100 (`LLtoUTM`, longitude and zone).

Simplifications: real arithmetic; progress messages are left out; `G` and `e_` of `redfearn`, which are not used, are left out.
-/

namespace Verif.Proj

noncomputable section

/-- `int(x)`: towards zero. -/
def trunc (x : ℝ) : ℤ := if 0 ≤ x then ⌊x⌋ else ⌈x⌉

/-! ### Degrees, minutes and seconds -/

/-- `degminsec2decimal_degrees`, `redfearn.py` 13-22; `none` where an assertion fails. -/
def toDecimal (dd mm ss : ℝ) : Option ℝ :=
  if |mm| = mm ∧ |ss| = ss then some ((if dd < 0 then -1 else 1) * (|dd| + mm / 60 + ss / 3600)) else none

/-- `decimal_degrees2degminsec`, 24-38. -/
def toDms (dec : ℝ) : ℤ × ℤ × ℝ :=
  let sign : ℤ := if dec < 0 then -1 else 1
  let dd := trunc |dec|
  let f := |dec| - dd
  let mm := trunc (f * 60)
  (sign * dd, mm, (f * 60 - mm) * 60)

/-! ### The ellipsoid, `redfearn.py` 63-97 -/

def semiMajor : ℝ := 6378137
def invFlat : ℝ := 298.257222101
def flat : ℝ := 1 / invFlat
def e2 : ℝ := 2 * flat - flat * flat
def e4 : ℝ := e2 * e2
def e6 : ℝ := e2 * e4

/-- Radii of curvature, 126-128. -/
def rho (s : ℝ) : ℝ := semiMajor * (1 - e2) / (1 - e2 * s * s) ^ (1.5 : ℝ)
def nu (s : ℝ) : ℝ := semiMajor / (1 - e2 * s * s) ^ (0.5 : ℝ)

/-- Meridian distance, 134-145. -/
def A0 : ℝ := 1 - e2 / 4 - 3 * e4 / 64 - 5 * e6 / 256
def A2 : ℝ := 3 / 8 * (e2 + e4 / 4 + 15 * e6 / 128)
def A4 : ℝ := 15 / 256 * (e4 + 3 * e6 / 4)
def A6 : ℝ := 35 * e6 / 3072

def meridian (phi : ℝ) : ℝ :=
  semiMajor * A0 * phi + -semiMajor * A2 * Real.sin (2 * phi) + semiMajor * A4 * Real.sin (4 * phi) + -semiMajor * A6 * Real.sin (6 * phi)

/-- The options of `redfearn`, 40-41. -/
structure Opts where
  falseEasting : Option ℝ := none
  falseNorthing : Option ℝ := none
  zone : Option ℤ := none
  meridian : Option ℝ := none
  scale : Option ℝ := none

/-- The zone of a longitude, 151-158; `none` where the assertion fails. -/
def zoneOf (lon : ℝ) : Option ℤ :=
  let z := trunc ((lon - (-186)) / 6)
  let z := if z > 60 then z - 60 else z
  if z = -1 ∨ (1 ≤ z ∧ z ≤ 60) then some z else none

/-- Zone and central meridian, 147-164. -/
def origin (lon : ℝ) (o : Opts) : Option (ℤ × ℝ) :=
  match o.zone, o.meridian with
  | some _, some _ => none
  | some z, none => some (z, z * 6 + (-183))
  | none, some c => (zoneOf lon).map fun _ => (-1, c)
  | none, none => (zoneOf lon).map fun z => (z, (z : ℝ) * 6 + (-183))

/-- The sum of the northing series, 176-181, without the meridian distance. -/
def northSeries (phi omega : ℝ) : ℝ :=
  let s := Real.sin phi
  let c := Real.cos phi
  let t2 := Real.tan phi * Real.tan phi
  let t4 := t2 * t2
  let t6 := t2 * t4
  let psi := nu s / rho s
  nu s * s * c * omega ^ 2 / 2
  + nu s * s * c ^ 3 * (4 * psi ^ 2 + psi - t2) * omega ^ 4 / 24
  + nu s * s * c ^ 5 * (8 * psi ^ 4 * (11 - 24 * t2) - 28 * psi ^ 3 * (1 - 6 * t2) + psi ^ 2 * (1 - 32 * t2) - psi * 2 * t2 + t4 - t2)
      * omega ^ 6 / 720
  + nu s * s * c ^ 7 * (1385 - 3111 * t2 + 543 * t4 - t6) * omega ^ 8 / 40320

/-- The sum of the easting series, 185-188. -/
def eastSeries (phi omega : ℝ) : ℝ :=
  let s := Real.sin phi
  let c := Real.cos phi
  let t2 := Real.tan phi * Real.tan phi
  let t4 := t2 * t2
  let t6 := t2 * t4
  let psi := nu s / rho s
  nu s * omega * c
  + nu s * c ^ 3 * (psi - t2) * omega ^ 3 / 6
  + nu s * c ^ 5 * (4 * psi ^ 3 * (1 - 6 * t2) + psi ^ 2 * (1 + 8 * t2) - 2 * psi * t2 + t4) * omega ^ 5 / 120
  + nu s * c ^ 7 * (61 - 479 * t2 + 179 * t4 - t6) * omega ^ 7 / 5040

/-- `redfearn`, 40-191; `none` where it raises. -/
def redfearn (lat lon : ℝ) (o : Opts := {}) : Option (ℤ × ℝ × ℝ) :=
  let k0 := o.scale.getD 0.9996
  let fe := o.falseEasting.getD 500000
  let fn := o.falseNorthing.getD (if lat < 0 then 10000000 else 0)
  let phi := lat * Real.pi / 180
  match origin lon o with
  | none => none
  | some (zone, cm) =>
    let omega := (lon - cm) * Real.pi / 180
    some (zone, fe + k0 * eastSeries phi omega, fn + k0 * (meridian phi + northSeries phi omega))

/-- The loop of `convert_from_latlon_to_utm`, 240-251, with `reconcile_zones` (`geo_reference.py` 447-457, -1 is the default zone). -/
def convertFrom (fe fn : Option ℝ) : List (ℝ × ℝ) → ℤ → Option (List (ℝ × ℝ) × ℤ)
  | [], z => some ([], z)
  | (lat, lon) :: ps, z =>
    match redfearn lat lon { falseEasting := fe, falseNorthing := fn } with
    | none => none
    | some (z', e, n) =>
      if z = z' ∨ z' = -1 then (convertFrom fe fn ps z).map fun r => ((e, n) :: r.1, r.2)
      else if z = -1 then (convertFrom fe fn ps z').map fun r => ((e, n) :: r.1, r.2)
      else none

/-- `convert_from_latlon_to_utm`, 194-258. -/
def convert (points : List (ℝ × ℝ)) (fe fn : Option ℝ := none) : Option (List (ℝ × ℝ) × ℤ) := convertFrom fe fn points (-1)

/-! ### The other conversion -/

/-- The longitude made fit, `lat_long_UTM_conversion.py` 76. -/
def fitLong (long : ℝ) : ℝ := (long + 180) - trunc ((long + 180) / 360) * 360 - 180

/-- `ZoneNumber`, 81-91. -/
def utmZone (lat long : ℝ) : ℤ :=
  let lt := fitLong long
  let z := trunc ((lt + 180) / 6) + 1
  let z := if 56 ≤ lat ∧ lat < 64 ∧ 3 ≤ lt ∧ lt < 12 then 32 else z
  if 72 ≤ lat ∧ lat < 84 then
    if 0 ≤ lt ∧ lt < 9 then 31
    else if 9 ≤ lt ∧ lt < 21 then 33
    else if 21 ≤ lt ∧ lt < 33 then 35
    else if 33 ≤ lt ∧ lt < 42 then 37
    else z
  else z

/-- `LongOrigin`, 93. -/
def utmOrigin (z : ℤ) : ℝ := (z - 1) * 6 - 180 + 3

end

end Verif.Proj
