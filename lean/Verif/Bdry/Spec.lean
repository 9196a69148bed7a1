import Verif.Bdry.Model

/-! What users rely on, stated without the helpers of the model. -/

set_option linter.unusedSectionVars false

namespace Verif.Bdry

/-- The binding of a tag after a history of `set_boundary` dictionaries: the one given by the last
dictionary that mentions the tag. -/
def bound {α : Type*} : List (Dict (Option α)) → Tag → Option (Option α)
  | [], _ => none
  | m :: ms, t =>
    match bound ms t with
    | some v => some v
    | none => (m.find? fun e => e.1 == t).map Prod.snd

/-- Every tag of the dictionary is a tag of the mesh or `'ghost'` (not checked in parallel). -/
def Known {α : Type*} (d : Binder α) (m : Dict (Option α)) : Prop :=
  d.parallel = true ∨ ∀ e ∈ m, e.1 = 0 ∨ ∃ s ∈ d.boundary, s.2 = e.1

/-- Tuple order of segment keys. -/
def segLt (a b : ℕ × ℕ) : Prop := a.1 < b.1 ∨ a.1 = b.1 ∧ a.2 < b.2

/-- The domain and dictionaries after a sequence of calls, whether or not they raised. -/
def runCalls {α : Type*} (isFlux : α → Bool) : Heap α × Binder α → List ℕ → Heap α × Binder α
  | s, [] => s
  | s, r :: rs =>
    runCalls isFlux ((setBoundary isFlux s.1 s.2 r).1, (setBoundary isFlux s.1 s.2 r).2.1) rs

section
variable {K : Type*} [Field K]

/-- A shallow water domain: three conserved quantities, nothing else evolves. -/
def ShallowWater (d : Dom K) : Prop :=
  d.conserved = [.stage, .xmom, .ymom] ∧ d.evolved = [.stage, .xmom, .ymom]

/-- Boundary values agree for the conserved quantities. -/
def SameConserved (d d' : Dom K) : Prop :=
  ∀ i, d.bv .stage i = d'.bv .stage i ∧ d.bv .xmom i = d'.bv .xmom i ∧ d.bv .ymom i = d'.bv .ymom i

/-- A normal of length one. -/
def Unit2 (n : K × K) : Prop := n.1 ^ 2 + n.2 ^ 2 = 1

/-- Component of a vector along the outward normal. -/
def along (n : K × K) (x y : K) : K := n.1 * x + n.2 * y

/-- Component of a vector along the boundary. -/
def across (n : K × K) (x y : K) : K := n.1 * y - n.2 * x

end

end Verif.Bdry
