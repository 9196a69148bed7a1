import Verif.Loop.Spec
import Mathlib.Analysis.SpecialFunctions.Trigonometric.Basic
import Mathlib.Analysis.Real.Sqrt

/-!
# Model of forcing terms: rain and inflow

Sources
* `/repo/anuga/shallow_water/forcing.py` 231-466 (`General_forcing`), 505-583 (`Rainfall`), 586-679 (`Inflow`)
* `/repo/anuga/abstract_2d_finite_volumes/general_mesh.py` 170 (areas), 240-241 (centroids)

Simplifications: real numbers; a rate is a number or a function of time that may report that the time is too early or too late; a rate `None`, other exceptions
of rates, and parallel runs are left out; messages are reduced to whether the warning is issued. The bounding polygon is an argument (it is the subject of
C83).
-/

namespace Verif.Forcing

open Verif.Polygon (Pt)

/-- Outcome of a function of time: a number, `Modeltime_too_early`, `Modeltime_too_late`. -/
inductive Out where
  | val (x : ℝ)
  | early
  | late

/-- A rate. -/
inductive Rate where
  | num (x : ℝ)
  | fn (f : ℝ → Out)

def Out.map (g : ℝ → ℝ) : Out → Out
  | .val x => .val (g x)
  | .early => .early
  | .late => .late

/-- `self.rate(t)` or `self.rate`, 461-464. -/
def Rate.eval : Rate → ℝ → Out
  | .num x, _ => .val x
  | .fn f, t => f t

/-- Centroid in absolute coordinates. -/
noncomputable def centroid (M : Loop.Mesh ℝ) (k : ℕ) : Pt ℝ :=
  ⟨((M.corner k 0).x + (M.corner k 1).x + (M.corner k 2).x) / 3, ((M.corner k 0).y + (M.corner k 1).y + (M.corner k 2).y) / 3⟩

/-- `areas[k]`. -/
noncomputable def area (M : Loop.Mesh ℝ) (k : ℕ) : ℝ :=
  -(((M.corner k 1).x * (M.corner k 0).y - (M.corner k 0).x * (M.corner k 1).y) +
    ((M.corner k 2).x * (M.corner k 1).y - (M.corner k 1).x * (M.corner k 2).y) +
    ((M.corner k 0).x * (M.corner k 2).y - (M.corner k 2).x * (M.corner k 0).y)) / 2

inductive Err where
  | arguments
  | outside
  | empty
  | area
  | early
  | late

/-- `is_inside_polygon(p, bounding_polygon)`. -/
noncomputable def inside (bounding : List (Pt ℝ)) (p : Pt ℝ) : Bool := Polygon.isInsidePolygon Real.sqrt true p bounding == some true

/-- Points on the periphery, 316-324. -/
noncomputable def periphery (c : Pt ℝ) (r : ℝ) : List (Pt ℝ) :=
  (List.range 100).map fun i : ℕ => ⟨c.x + r * Real.cos (2 * Real.pi * i / 100), c.y + r * Real.sin (2 * Real.pi * i / 100)⟩

/-- `exchange_indices`, 341-361. -/
noncomputable def indices (M : Loop.Mesh ℝ) (center : Option (Pt ℝ)) (radius : Option ℝ) (polygon : Option (List (Pt ℝ))) : Option (List ℕ) :=
  let circle := match center, radius with
    | some c, some r => some ((List.range M.n).filter fun k => decide (((centroid M k).x - c.x) ^ 2 + ((centroid M k).y - c.y) ^ 2 < r ^ 2))
    | _, _ => none
  match polygon with
  | some P => some (Polygon.insidePolygon Real.sqrt true ((List.range M.n).map (centroid M)) P)
  | none => circle

/-- The checks of the circle, 305-329. -/
noncomputable def circleOutside (bounding : List (Pt ℝ)) : Option (Pt ℝ) → Option ℝ → Bool
  | some c, some r => !inside bounding c || (periphery c r).any fun p => !inside bounding p
  | _, _ => false

/-- `General_forcing.__init__`, 283-380: the triangles (all if `none`) and the exchange area. -/
noncomputable def build (M : Loop.Mesh ℝ) (bounding : List (Pt ℝ)) (center : Option (Pt ℝ)) (radius : Option ℝ) (polygon : Option (List (Pt ℝ))) :
    Except Err (Option (List ℕ) × ℝ) :=
  if center.isNone && radius.isSome then .error .arguments
  else if radius.isNone && center.isSome then .error .arguments
  else if center.isSome && polygon.isSome then .error .arguments
  else if circleOutside bounding center radius then .error .outside
  else if (polygon.getD []).any fun p => !inside bounding p then .error .outside
  else
    match indices M center radius polygon with
    | none => if Polygon.polygonArea bounding > 0 then .ok (none, Polygon.polygonArea bounding) else .error .area
    | some l =>
      if l.length = 0 then .error .empty
      else
        let a := l.foldl (fun s k => s + area M k) 0
        if a > 0 then .ok (some l, a) else .error .area

/-- A forcing term. -/
structure Term where
  indices : Option (List ℕ)
  area : ℝ
  rate : Rate
  dflt : Option (ℝ → ℝ)
  /-- `update_rate` is overridden as in `Inflow` -/
  inflow : Bool
  /-- `default_rate_invoked` -/
  invoked : Bool

/-- `update_rate`, 456-466 and 664-679. -/
noncomputable def Term.updateRate (T : Term) (t : ℝ) : Out := if T.inflow then (T.rate.eval t).map (· / T.area) else T.rate.eval t

/-- `update[k] += rate`, 449-454. -/
def apply (indices : Option (List ℕ)) (rate : ℝ) (u : List ℝ) : List ℝ :=
  match indices with
  | none => u.map (· + rate)
  | some l => l.foldl (fun u k => u.modify k (· + rate)) u

/-- `__call__`, 407-454: the new update vector, the term, and whether a warning is issued. -/
noncomputable def Term.call (T : Term) (t : ℝ) (u : List ℝ) : Except Err (List ℝ × Term × Bool) :=
  match T.updateRate t with
  | .early => .error .early
  | .val x => .ok (apply T.indices x u, T, false)
  | .late =>
    match T.dflt with
    | none => .error .late
    | some d => .ok (apply T.indices (d t) u, { T with invoked := true }, !T.invoked)

/-- `Inflow`, 632-662. -/
noncomputable def inflow (M : Loop.Mesh ℝ) (bounding : List (Pt ℝ)) (rate : Rate) (center : Option (Pt ℝ)) (radius : Option ℝ) (polygon : Option (List (Pt ℝ)))
    (dflt : Option (ℝ → ℝ)) : Except Err Term :=
  (build M bounding center radius polygon).map fun b => ⟨b.1, b.2, rate, dflt, true, false⟩

/-- `Rainfall`, 549-583. -/
noncomputable def rainfall (M : Loop.Mesh ℝ) (bounding : List (Pt ℝ)) (rate : Rate) (center : Option (Pt ℝ)) (radius : Option ℝ) (polygon : Option (List (Pt ℝ)))
    (dflt : Option (ℝ → ℝ)) : Except Err Term :=
  let rain := match rate with
    | .num x => Rate.num (x / 1000)
    | .fn f => Rate.fn fun t => (f t).map (· / 1000)
  (build M bounding center radius polygon).map fun b => ⟨b.1, b.2, rain, dflt.map fun d t => d t / 1000, false, false⟩

end Verif.Forcing
