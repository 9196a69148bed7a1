import Verif.Erode.PropsDune

/-!
# C94: concrete cases
-/

namespace Verif.Erode

open Verif.SetQ Verif.NodeAvg

/-- A square root that is right for the squares used here. -/
def root (x : ℚ) : ℚ := if x = 25 then 5 else if x = 1 then 1 else if x = 4 then 2 else if x = 2 / 9 then 47 / 100 else 0

/-- Depth 1 over a bed at 1; the water of triangle 0 moves with momentum (3, 4). -/
def stream : State ℚ := ⟨fun _ => 2, fun _ => 1, fun k => if k = 0 then 3 else 0, fun k => if k = 0 then 4 else 0, fun _ => 1, fun _ => 1⟩

/-- The hypotheses about depth, slope and scour are met: stress 9810 Pa, factor 98100, one second: scour 0.1 in the first triangle, none in
the second. -/
example : IsShearScour root ⟨1, 0⟩ 98100 (fun _ => 1) 1 stream 0 (1 / 10) ∧ IsShearScour root ⟨1, 0⟩ 98100 (fun _ => 1) 1 stream 1 0 := by
  refine ⟨Or.inl ?_, Or.inr ?_⟩ <;> (simp only [depth, stream, root]; norm_num)

/-- Bed shear, discontinuous bed: 1 sinks to 0.9; with base 0.95 it stops there; the depth stays. -/
example : let s' := shear root (square true true) ⟨1, 0⟩ 98100 (fun _ => 1) [0, 1] [] [] 1 stream
    ((List.range 2).map s'.elev, (List.range 2).map s'.stage) = ([9 / 10, 1], [19 / 10, 2]) := by decide +kernel
example : let s' := shear root (square true true) ⟨1, 95 / 100⟩ 98100 (fun _ => 1) [0, 1] [] [] 1 stream
    ((List.range 2).map s'.elev, (List.range 2).map s'.stage) = ([95 / 100, 1], [195 / 100, 2]) := by decide +kernel

/-- Still water and a bed below the base: it is lifted to the base. -/
example : let s' := shear root (square true true) ⟨1, 3⟩ 98100 (fun _ => 1) [1] [] [] 1 stream
    ((List.range 2).map s'.elev, (List.range 2).map s'.stage) = ([1, 3], [2, 4]) := by decide +kernel

/-- A run as in `C94_run`: the same stream in every step. -/
example : ∃ (S : ℕ → State ℚ), (∀ i k, 0 ≤ depth (S i) k) ∧ (0 : ℚ) ≤ (S 0).elev 0 ∧
    ∀ i, (S (i + 1)).elev = (shear root (square true true) ⟨1, 0⟩ 98100 (fun _ => 1) [0] [] [] 1 (S i)).elev := by
  let step := fun s : State ℚ => shear root (square true true) ⟨1, 0⟩ 98100 (fun _ => 1) [0] [] [] 1 s
  refine ⟨fun i => step^[i] stream, fun i k => ?_, by decide +kernel, fun i => ?_⟩
  · have : depth (step^[i] stream) k = depth stream k := by
      induction i with
      | zero => rfl
      | succ i ih =>
        rw [Function.iterate_succ_apply']
        exact ((C94_water root (square true true) ⟨1, 0⟩ 98100 (fun _ => 1) ⟨0, id, 0, none, fun _ _ => 0⟩ none [0] [] [] 1 _).1.1 k).trans ih
    rw [this]
    show (0 : ℚ) ≤ 2 - 1
    norm_num
  · simp only
    rw [Function.iterate_succ_apply']

/-- Continuous bed, region of triangle 0: node 0 sinks by 0.1, the shared nodes by half of that, node 3 stays. -/
example : let s' := shear root (square false false) ⟨1, 0⟩ 98100 (fun _ => 1) [0] [2, 0, 1] [0, 1] 1 stream
    ((List.range 6).map s'.ev, (List.range 2).map fun k => s'.stage k - s'.elev k) =
      ([9 / 10, 95 / 100, 95 / 100, 95 / 100, 95 / 100, 1], [1, 1]) := by decide +kernel

example : SetQ.Continuous (square false false) stream.ev := fun _ _ _ _ _ => rfl

/-- A bed with steps: levels 1 and 4. -/
def steps : State ℚ := ⟨fun _ => 5, fun k => [1, 4].getD k 0, fun _ => 0, fun _ => 0, fun c => [0, 3, 0, 4, 4, 4].getD c 0, fun _ => 0⟩

/-- Slicing at 2; filling and slicing at 2 and at 6. -/
example : let s' := slice (square true true) (some 2) [0, 1] [] [] steps
    ((List.range 2).map s'.elev, (List.range 2).map s'.stage) = ([1, 2], [5, 3]) := by decide +kernel
example : (List.range 2).map (fillSlice (square true true) (some 2) [0, 1] [] [] steps).elev = [1, 2] := by decide +kernel
example : (List.range 2).map (fillSlice (square true true) (some 6) [0, 1] [] [] steps).elev = [6, 6] := by decide +kernel

/-- The plain operator on one triangle under still water: the bed rises from 1 to 3; on two triangles it fails. -/
example : ((erosion root (square true true) ⟨0, 0⟩ [0] [] [] 1 steps).map fun s => (List.range 2).map s.elev) = some [3, 4] := by
  decide +kernel
example : ((erosion root (square true true) ⟨0, 0⟩ [0, 1] [] [] 1 steps).map fun s => (List.range 2).map s.elev) = none := by
  decide +kernel

/-- A dune: the neighbour of triangle 1 (on all sides) is triangle 0; slope 1, distance 1. -/
def line : Dom ℚ := { square true true with cx := fun k => k, cy := fun _ => 0 }
def sand (base : Option (ℕ → ℚ)) : Dune ℚ := ⟨1, fun h => h, 98 / 10, base, fun k _ => 1 - k⟩

/-- Triangle 1 at 4 collapses to one above its neighbour at 1, or to its base; a number as base fails. -/
example : ((dune root line (sand (some fun _ => 0)) [1] 1 steps).map fun s => ((List.range 2).map s.elev, (List.range 2).map s.stage)) =
    some ([1, 2], [5, 3]) := by decide +kernel
example : ((dune root line (sand (some fun _ => 3)) [1] 1 steps).map fun s => ((List.range 2).map s.elev, (List.range 2).map s.stage)) =
    some ([1, 3], [5, 4]) := by decide +kernel
example : ((dune root line (sand none) [1] 1 steps).map fun s => (List.range 2).map s.elev) = none := by decide +kernel

/-- Strong flow: 25 * 8.82 Pa over depth 1, scour positive. -/
example : ∃ e, 0 < e ∧ IsDuneScour (sand none) 1 stream 0 e := by
  refine ⟨duneScour (sand none) 1 stream 0, by decide +kernel, duneScour_spec _ _ (by norm_num) _ _⟩

end Verif.Erode
