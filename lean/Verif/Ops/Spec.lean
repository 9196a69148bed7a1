import Verif.Ops.Model

/-! # Vocabulary for the operator properties -/

namespace Verif.Ops

variable {K : Type*} [Field K] [LinearOrder K] {n : ℕ}

/-- Water depth in a triangle. -/
def State.depth (s : State K n) (i : Fin n) : K := s.stage i - s.elev i

/-- Water in the triangles that are not ghosts. -/
def water (d : Dom K n) (s : State K n) : K := ∑ i, if d.full i then d.area i * s.depth i else 0

/-- Water in a set of triangles. -/
def waterIn (d : Dom K n) (s : State K n) (c : Finset (Fin n)) : K := ∑ i ∈ c, d.area i * s.depth i

/-- The rate a user asked for in triangle `i` at time `t`: outside the time range of the data the default. -/
def rateOf (d : Dom K n) (op : RateOp K n) (t : K) (i : Fin n) : Option K :=
  match op.rate with
  | .scalar v => some v
  | .temporal f =>
    match f t with
    | .val v => some v
    | _ => op.default.map fun g => g t
  | .xy f => some (f (d.cx i) (d.cy i))
  | .xyt f => some (f (d.cx i) (d.cy i) t)
  | .field f => some (f i)

/-- Triangle `i` is the same in both states. -/
def SameAt (s s' : State K n) (i : Fin n) : Prop :=
  s'.stage i = s.stage i ∧ s'.elev i = s.elev i ∧ s'.xmom i = s.xmom i ∧ s'.ymom i = s.ymom i

end Verif.Ops
