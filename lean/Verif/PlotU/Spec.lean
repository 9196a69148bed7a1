import Verif.PlotU.Model
import Verif.Polygon.PropsTwo

/-! # Vocabulary for reading result files -/

namespace Verif.PlotU

open Verif.Polygon (Pt)
open Verif.FileFn (Var)

variable {K : Type*} [Field K] [LinearOrder K]

/-- Row `k` and column `j` of the array hold `a`. -/
def At (A : List (List K)) (k j : ℕ) (a : K) : Prop := ∃ r, A[k]? = some r ∧ r[j]? = some a

/-- The file holds `a` for time number `i` and node (or triangle) `j`. -/
def Stored (i j : ℕ) (a : K) : Var K → Prop
  | .one v => v[j]? = some a
  | .two v => At v i j a

/-- The variable `name` of the file at time number `i` and node `j` is `a`. -/
def Sww.Holds (f : Sww K) (name : String) (i j : ℕ) (a : K) : Prop := ∃ v, f.vars name = some v ∧ Stored i j a v

/-- The variable does not change with time. -/
def Fixed (f : Sww K) (name : String) : Prop := ∃ v, f.vars name = some (.one v)

/-- `l` numbers the times that were asked for. -/
def Chosen (m : ℕ) (l : List ℕ) : Slices → Prop
  | .all => l = List.range m
  | .last => l = [m - 1]
  | .max => False
  | .list l' => l = l'

/-- Depth of water at a node: the stored one if there is one, else stage less bed; never below zero. -/
def Depth (f : Sww K) (i j : ℕ) (d : K) : Prop :=
  (∃ h, f.Holds "height" i j h ∧ d = max h 0) ∨
    (f.vars "height" = none ∧ ∃ a b, f.Holds "stage" i j a ∧ f.Holds "elevation" i j b ∧ d = max (a - b) 0)

/-- `v` is the velocity of a flow with momentum `u` in water of depth `d`: zero in water not deeper than `hmin`. -/
def Vel (hmin u d v : K) : Prop := (d ≤ hmin → v = 0) ∧ (hmin < d → v * (d + 1 / 10 ^ 12) = u)

/-- The value `a` of corner values `a0 a1 a2` of triangle `k`. -/
def Corners (f : Sww K) (k : ℕ) (g : ℕ → K → Prop) (a0 a1 a2 : K) : Prop :=
  ∃ t, f.vols[k]? = some t ∧ g t.1 a0 ∧ g t.2.1 a1 ∧ g t.2.2 a2

/-- The value of a variable at a centroid: as stored, or the mean of the corners. -/
def Cent (f : Sww K) (name : String) (i k : ℕ) (a : K) : Prop :=
  f.Holds (name ++ "_c") i k a ∨
    (f.vars (name ++ "_c") = none ∧ ∃ a0 a1 a2, Corners f k (f.Holds name i) a0 a1 a2 ∧ a = (a0 + a1 + a2) / 3)

/-- The bed at the centroids does not change with time. -/
def FixedCent (f : Sww K) : Prop := (∃ v, f.vars "elevation_c" = some (.one v)) ∨ (f.vars "elevation_c" = none ∧ Fixed f "elevation")

/-- Depth at a centroid of a file with values at centroids: the stored one, else stage less bed. -/
def CentDepth (f : Sww K) (i k : ℕ) (d : K) : Prop :=
  f.Holds "height_c" i k d ∨
    (f.vars "height_c" = none ∧ FixedCent f ∧ ∃ a b, f.Holds "stage_c" i k a ∧ Cent f "elevation" i k b ∧ d = a - b)

/-- Momentum `p` (of the component `name`) and velocity `v` at a centroid. From values at centroids; or from those at the corners: either the
mean momentum and the velocity it gives in the mean depth, or (`extrapolate`) the mean velocity and the momentum it gives in the mean depth. -/
def CentFlow (f : Sww K) (extrapolate : Bool) (hmin : K) (name : String) (i k : ℕ) (p v : K) : Prop :=
  (f.Holds (name ++ "_c") i k p ∧ (f.vars "xmomentum_c").isSome ∧ ∃ d, CentDepth f i k d ∧ Vel hmin p d v) ∨
    (f.vars "xmomentum_c" = none ∧ ∃ u0 u1 u2 s0 s1 s2 b0 b1 b2, Corners f k (f.Holds name i) u0 u1 u2 ∧
      Corners f k (f.Holds "stage" i) s0 s1 s2 ∧ Corners f k (f.Holds "elevation" i) b0 b1 b2 ∧
      if extrapolate then ∃ v0 v1 v2, Vel hmin u0 (s0 - b0) v0 ∧ Vel hmin u1 (s1 - b1) v1 ∧ Vel hmin u2 (s2 - b2) v2 ∧
        v = (v0 + v1 + v2) / 3 ∧ p = v * ((s0 - b0 + (s1 - b1) + (s2 - b2)) / 3)
      else p = (u0 + u1 + u2) / 3 ∧ Vel hmin p ((s0 - b0 + (s1 - b1) + (s2 - b2)) / 3) v)

/-- The array has `r` rows of `c` values. -/
def Rect (A : List (List K)) (r c : ℕ) : Prop := A.length = r ∧ ∀ row ∈ A, row.length = c

end Verif.PlotU
