import Verif.Quantity.Model
import Verif.Polygon.Model
import Mathlib.Analysis.SpecialFunctions.Trigonometric.Basic
import Mathlib.Analysis.Real.Sqrt

/-!
# Model of forcing terms: wind, air pressure and stored time series

Sources
* `/repo/anuga/shallow_water/forcing.py` 26-77 (`check_forcefield`), 80-228 (`Wind_stress`), 822-964 (`Barometric_pressure`), 967-1138
  (`Barometric_pressure_fast`), 1141-1340 (`Wind_stress_fast`)
* `/repo/anuga/config.py` (`eta_w`, `rho_a`, `rho_w`)

Simplifications: real numbers; functions do not raise; values of a function are a list; stored series have one value per point and are functions of time that have
a value everywhere. The file with times is the list of its times.
-/

namespace Verif.Forcing

open Verif.Polygon (Pt)

/-- `eta_w*rho_a/rho_w` with the values of `config.py`, 158. -/
noncomputable def windConst : ℝ := 3 / 1000 * (12 / 10000) / 1023

/-- Speed or angle: a number or a function of time and coordinates. -/
inductive Field where
  | num (x : ℝ)
  | fn (f : ℝ → List ℝ → List ℝ → List ℝ)

/-- `check_forcefield`, 26-77. -/
def checkForcefield : Field → Option Field
  | .num x => some (.num x)
  | .fn f => if (f 1 [1, 1, 1] [1, 1, 1]).length = 3 then some (.fn f) else none

/-- Values at the centroids, 168-201. -/
def Field.values (F : Field) (t : ℝ) (xs ys : List ℝ) : List ℝ :=
  match F with
  | .num x => List.replicate xs.length x
  | .fn f => f t xs ys

/-- The loop of `assign_windfield_values`, 208-228; `none`: an index is out of range. -/
noncomputable def assignWind (const : ℝ) (s phi : List ℝ) : ℕ → List ℝ × List ℝ → Option (List ℝ × List ℝ)
  | 0, u => some u
  | k + 1, u =>
    match assignWind const s phi k u with
    | none => none
    | some (ux, uy) =>
      match s[k]?, phi[k]?, ux[k]?, uy[k]? with
      | some s, some phi, some _, some _ =>
        let p := phi * Real.pi / 180
        let u := s * Real.cos p
        let v := s * Real.sin p
        let S := const * Real.sqrt (u ^ 2 + v ^ 2)
        some (ux.modify k (· + S * u), uy.modify k (· + S * v))
      | _, _, _, _ => none

/-- `Wind_stress(s, phi)`, 119-158, and its call, 160-203. -/
noncomputable def wind (s phi : Field) (t : ℝ) (centroids : List (Pt ℝ)) (u : List ℝ × List ℝ) : Option (List ℝ × List ℝ) :=
  match checkForcefield s, checkForcefield phi with
  | some s, some phi =>
    let xs := centroids.map Pt.x
    let ys := centroids.map Pt.y
    let sv := s.values t xs ys
    assignWind windConst sv (phi.values t xs ys) sv.length u
  | _, _ => none

/-- `assign_pressure_field_values`, 936-964, for one triangle: corners, pressure at the corners, depth, and the two updates. -/
noncomputable def assignPressure (a b c : Pt ℝ) (p0 p1 p2 h : ℝ) (u : ℝ × ℝ) : ℝ × ℝ :=
  let g := Quantity.gradient a.x a.y b.x b.y c.x c.y p0 p1 p2
  (u.1 + h * g.1 / 1023, u.2 + h * g.2 / 1023)

/-- State of a stored series. -/
structure Stored where
  index : ℕ
  prev : ℕ → ℝ
  next : ℕ → ℝ

/-- `self.index`, 1078-1083 and 1256-1261. -/
noncomputable def firstIndex (start : ℝ) : List ℝ → ℕ → ℕ → ℕ
  | [], _, j => j
  | x :: l, i, j => if x < start then firstIndex start l (i + 1) i else j

/-- Construction, 1055-1090 and 1233-1271; `none`: refused. The last test needs two times. -/
noncomputable def openSeries (ft : List ℝ) (f : ℝ → ℕ → ℝ) (start : ℝ) : Option Stored :=
  match ft[0]?, ft[ft.length - 1]?, ft[ft.length - 2]? with
  | some a, some z, some y =>
    if ft.length < 2 then none
    else if start < a then none
    else if z < start then none
    else if y < start ∧ start < z then none
    else
      let i := firstIndex start ft 0 0
      match ft[i]?, ft[i + 1]? with
      | some p, some q => some ⟨i, f p, f q⟩
      | _, _ => none
  | _, _, _ => none

/-- `update_stored_pressure_values`, 1133-1138, and the same for wind, 1333-1340; `none`: an index is out of range. -/
noncomputable def advance (ft : List ℝ) (f : ℝ → ℕ → ℝ) (t : ℝ) (s : Stored) : Option Stored :=
  match _h : ft[s.index + 1]? with
  | none => none
  | some q =>
    if q < t then
      match ft[s.index + 2]? with
      | none => none
      | some r => advance ft f t ⟨s.index + 1, s.next, f r⟩
    else some s
  termination_by ft.length - s.index
  decreasing_by
    have := (List.getElem?_eq_some_iff.mp _h).1
    omega

/-- A call at time `t`: values at the points and the new state, 1108-1112 and 1291-1299. -/
noncomputable def readSeries (ft : List ℝ) (f : ℝ → ℕ → ℝ) (t : ℝ) (s : Stored) : Option ((ℕ → ℝ) × Stored) :=
  match advance ft f t s with
  | none => none
  | some s' =>
    match ft[s'.index]?, ft[s'.index + 1]? with
    | some p, some q =>
      let ratio := (t - p) / (q - p)
      some (fun i => s'.prev i + ratio * (s'.next i - s'.prev i), s')
    | _, _ => none

/-- Calls one after the other. -/
noncomputable def readAll (ft : List ℝ) (f : ℝ → ℕ → ℝ) : List ℝ → Stored → Option (List (ℕ → ℝ))
  | [], _ => some []
  | t :: ts, s =>
    match readSeries ft f t s with
    | none => none
    | some (v, s') =>
      match readAll ft f ts s' with
      | none => none
      | some vs => some (v :: vs)

end Verif.Forcing
