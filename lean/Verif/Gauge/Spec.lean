import Verif.Gauge.Model
import Verif.FileFn.Spec
import Verif.FileFn.Lemmas

/-! # Vocabulary for series at gauges -/

namespace Verif.Gauge

open Verif.Polygon (Pt isInsidePolygon)
open Verif.Interp (Mesh)
open Verif.FileFn (File Fn Cell Err Var Around InSpace absNode relTo moved)
open Verif.Quad (Tri Covers Almost)

variable {K : Type*} [Field K] [LinearOrder K]

/-- A result file with its vertices, times, quantities, interpolator and triangles. -/
structure Src (K : Type*) where
  f : File K
  x : List (Pt K)
  T : List K
  vals : List (Var K)
  m : Mesh K
  ts : List (Tri K)

/-- The absolute position `P` lies in the mesh of the file. -/
def Src.On (sq : K → K) (s : Src K) (P : Pt K) : Prop :=
  isInsidePolygon sq true (relTo s.f.corner P) s.m.boundary = some true ∧ ∃ t ∈ s.ts, Covers (moved s.f.corner t) P

/-- It lies outside its outline or in a hole. -/
def Src.Off (sq : K → K) (s : Src K) (P : Pt K) : Prop :=
  isInsidePolygon sq true (relTo s.f.corner P) s.m.boundary ≠ some true ∨ ∀ t ∈ s.ts, ¬ Almost (moved s.f.corner t) P

/-- `y` is the value at the absolute position `P` of the quantity `name` in result number `i` of the file. -/
def Src.At (s : Src K) (cen : Bool) (abc : ℕ × ℕ × ℕ) (P : Pt K) (i : ℕ) (name : String) (y : K) : Prop :=
  ∃ v, s.f.vars name = some v ∧ InSpace cen (absNode s.x s.f.corner abc.1) (absNode s.x s.f.corner abc.2.1) (absNode s.x s.f.corner abc.2.2)
    (v.value i abc.1) (v.value i abc.2.1) (v.value i abc.2.2) P y

/-- The quantities that can be exported (without centroids). -/
def exported : List String := ["stage", "elevation", "xmomentum", "ymomentum", "depth", "momentum", "speed", "bearing"]

/-- `c` is the entry for quantity `s` where stage, elevation and momentum are `w`, `z`, `uh`, `vh`. -/
def Entry (bear : K → K → Cell K) (w z uh vh : K) (s : String) (c : Cell K) : Prop :=
  (s = "stage" → c = .num w) ∧ (s = "elevation" → c = .num z) ∧ (s = "xmomentum" → c = .num uh) ∧ (s = "ymomentum" → c = .num vh) ∧
  (s = "depth" → c = .num (w - z)) ∧ (s = "momentum" → ∃ m, 0 ≤ m ∧ m * m = uh ^ 2 + vh ^ 2 ∧ c = .num m) ∧
  (s = "speed" → (w - z < 1 / 1000 ∨ 10 ^ 6 ≤ uh → c = .num 0) ∧
    (1 / 1000 ≤ w - z → uh < 10 ^ 6 → ∃ v, 0 ≤ v ∧ (v * (w - z)) * (v * (w - z)) = uh ^ 2 + vh ^ 2 ∧ c = .num v)) ∧
  (s = "bearing" → c = bear uh vh)

/-- The rows for a gauge at `P` from one file: one per result, with the time (counted from `off`) in seconds and hours and the columns in the
order requested. -/
def Piece (s : Src K) (cen : Bool) (bear : K → K → Cell K) (off : K) (names : List String) (P : Pt K) (rows : List (List (Cell K))) : Prop :=
  ∃ abc, Around s.f s.x abc P ∧ rows.length = s.T.length ∧ ∀ (i : ℕ) (t : K), s.T[i]? = some t → ∃ w z uh vh cs,
    s.At cen abc P i "stage" w ∧ s.At cen abc P i "elevation" z ∧ s.At cen abc P i "xmomentum" uh ∧ s.At cen abc P i "ymomentum" vh ∧
    cs.length = names.length ∧ (∀ (n : ℕ) (q : String), names[n]? = some q → ∃ c, cs[n]? = some c ∧ Entry bear w z uh vh q c) ∧
    rows[i]? = some (.num (t + off) :: .num ((t + off) / 3600) :: cs)

end Verif.Gauge
