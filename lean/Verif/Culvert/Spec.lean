import Verif.Culvert.Model
import Mathlib.Order.Bounds.Basic

/-!
# What is expected of culverts
-/

namespace Verif.Culvert

open Real

/-- Head used up by a flow `q` through a barrel with flow area `A` and wetted perimeter `P`: local losses and friction (Manning), per
velocity squared. -/
noncomputable def headLoss (b : Barrel) (A P q : ℝ) : ℝ :=
  (b.sumLoss / (2 * g) + b.manning ^ 2 * b.length / (A / P) ^ (1.33333 : ℝ)) * (q / A) ^ 2

/-- Losses are not negative and there are some. -/
structure Barrel.Ok (b : Barrel) : Prop where
  loss : 0 ≤ b.sumLoss
  length : 0 ≤ b.length
  some : 0 < b.sumLoss ∨ (b.manning ≠ 0 ∧ 0 < b.length)

structure Box.Ok (c : Box) : Prop extends Barrel.Ok c.toBarrel where
  width : 0 < c.width
  height : 0 < c.height
  barrels : 0 < c.barrels
  blockage : c.blockage < 1

structure Pipe.Ok (c : Pipe) : Prop extends Barrel.Ok c.toBarrel where
  diameter : 0 < c.diameter
  barrels : 0 < c.barrels
  lower : 0 ≤ c.blockage
  upper : c.blockage < 1

structure Weir.Ok (c : Weir) : Prop extends Barrel.Ok c.toBarrel where
  width : 0 < c.width
  height : 0 < c.height
  barrels : 0 < c.barrels
  blockage : c.blockage < 1
  z1 : 0 ≤ c.z1
  z2 : 0 ≤ c.z2

/-- Open width of all barrels together. -/
def Box.open (c : Box) : ℝ := (1 - c.blockage) * c.width * c.barrels

/-- Boyd's inlet control formulas for boxes: weir and orifice. -/
noncomputable def Box.weir (c : Box) (E : ℝ) : ℝ := 0.544 * √g * c.open * E ^ (1.5 : ℝ)

noncomputable def Box.orifice (c : Box) (E : ℝ) : ℝ := 0.702 * √g * c.open * c.height ^ (0.89 : ℝ) * E ^ (0.61 : ℝ)

/-- Critical depth of the flow that the inlet lets in. -/
noncomputable def Box.critical (c : Box) (E : ℝ) : ℝ := (min (c.weir E) (c.orifice E) ^ 2 / g / c.open ^ 2) ^ (0.333333 : ℝ)

/-- The barrels run full: the flow that the inlet lets in does not fit under the roof, or the outlet is drowned. -/
def Box.Full (c : Box) (E dH outD : ℝ) : Prop := c.critical E > c.height ∨ (dH < E ∧ outD > c.height)

/-- Wetted perimeter of a full box and of one filled to depth `d`. -/
def Box.fullPerimeter (c : Box) : ℝ := 2 * (c.open + c.height)

def Box.wetPerimeter (c : Box) (d : ℝ) : ℝ := c.open + 2 * d

/-- Boyd's inlet control formulas for pipes with open diameter `D`. -/
noncomputable def Pipe.weir (c : Pipe) (D E : ℝ) : ℝ := 0.421 * √g * c.barrels * D ^ (0.87 : ℝ) * E ^ (1.63 : ℝ)

noncomputable def Pipe.orifice (c : Pipe) (D E : ℝ) : ℝ := 0.530 * √g * c.barrels * D ^ (1.87 : ℝ) * E ^ (0.63 : ℝ)

/-- `A` and `P` are the flow area and the wetted perimeter of `n` pipes of diameter `D` filled to depth `d`: the water surface is the
chord of an arc of angle `t`. -/
def Filled (n D d A P : ℝ) : Prop :=
  ∃ t, 0 ≤ t ∧ t ≤ 2 * π ∧ D / 2 - D / 2 * cos (t / 2) = d ∧ A = n * ((D / 2) ^ 2 / 2 * (t - sin t)) ∧ P = n * (D / 2 * t)

/-- Inlet control formulas for trapezoids; `w` is the mean width. -/
noncomputable def Weir.meanWidth (c : Weir) : ℝ := c.width + c.height * (c.z1 + c.z2) / 2

noncomputable def Weir.weir (c : Weir) (E : ℝ) : ℝ := 1.7 * (1 - c.blockage) * c.barrels * c.meanWidth * E ^ (1.5 : ℝ)

noncomputable def Weir.orifice (c : Weir) (E : ℝ) : ℝ :=
  0.8 * (1 - c.blockage) * c.barrels * √g * (c.height * c.meanWidth) * √E

/-- `c'` lets at least as much through as `c`: same height, not narrower, not rougher. -/
structure Box.Wider (c c' : Box) : Prop where
  height : c'.height = c.height
  width : c.open ≤ c'.open
  loss : c'.sumLoss ≤ c.sumLoss
  friction : c'.manning ^ 2 * c'.length ≤ c.manning ^ 2 * c.length

/-- A structure whose discharge function always answers, with a discharge that is not negative and a positive flow area. -/
def Kind.Good (k : Kind) : Prop :=
  ∀ E dH outD, 0 < E → 0 ≤ dH → ∃ f, k.fn E dH outD = some f ∧ 0 ≤ f.Q ∧ 0 < f.area

/-- It carries water whenever there is a difference of levels. -/
def Kind.Carries (k : Kind) : Prop := ∀ E dH outD f, 0 < E → 0 < dH → k.fn E dH outD = some f → 0 < f.Q

/-- Energy of inlet 0 above that of inlet 1, with or without the velocity head. -/
def Kind.diff (k : Kind) (a b : Enq) : ℝ := if k.useVelocityHead then (a.head + a.stage) - (b.head + b.stage) else a.stage - b.stage

/-- Energy above the invert that drives water in. -/
def Kind.driving (k : Kind) (a : Enq) : ℝ := if k.useVelocityHead then a.head + a.depth else a.depth

/-- Where water comes from and where it goes. -/
def donor (fwd : Bool) (a b : Enq) : Enq := if fwd then a else b

end Verif.Culvert
