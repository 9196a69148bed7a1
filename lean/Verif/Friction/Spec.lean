import Verif.Friction.Model

/-!
# Vocabulary for friction
-/

namespace Verif.Friction

variable {K : Type*} [Field K] [LinearOrder K]

/-- What is used of the physical constants and library functions. -/
structure Physical (c : FC K) : Prop where
  g : 0 ≤ c.g
  eps : 0 < c.eps
  sqrt : ∀ x, 0 ≤ c.sqrt x
  pow : ∀ h, 0 < h → 0 < c.pow73 h

/-- Manning's law: `r` is the relative rate of change of momentum per unit time in water of depth `h` with roughness `n` and
momentum of size `m`, times the slope factor `s`: `r h^(7/3) = - g n² s m`. -/
def Manning (c : FC K) (h n s m r : K) : Prop := r * c.pow73 h = -(c.g * n ^ 2 * s * m)

/-- Friction is active on a triangle: rough bed and enough water above bed level `z`. -/
def Active (c : FC K) (d : Cell K) (z : K) : Prop := c.eps < d.eta ∧ c.eps ≤ d.w - z

/-- Bed level used for the depth. -/
def bedOf (useSloped : Bool) (d : Cell K) : K := if useSloped then (d.z0 + d.z1 + d.z2) * (1 / 3) else d.z

/-- Slope factor. -/
def slopeOf (c : FC K) (useSloped : Bool) (d : Cell K) : K :=
  if useSloped then
    let s := Quantity.gradient d.x0 d.y0 d.x1 d.y1 d.x2 d.y2 d.z0 d.z1 d.z2
    c.sqrt (1 + s.1 * s.1 + s.2 * s.2)
  else 1

end Verif.Friction
