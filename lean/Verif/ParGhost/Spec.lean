import Verif.ParGhost.Model

/-! # What exchanges of ghost values are meant to do -/

namespace Verif.ParGhost

variable {V T σ : Type}

/-- All processors together, exchange by exchange: memories after `r` exchanges. In exchange `r` every processor gets what its
neighbours have in this exchange. -/
def together (c : Sys V T σ) (mem : ℕ → σ) : ℕ → ℕ → σ
  | 0 => mem
  | r + 1 => fun p =>
    let here := fun q => if r = 0 then together c mem r q
      else if c.coll (r - 1) then c.absorb q (together c mem r q) ((List.range c.m).map fun u => c.give u (together c mem r u))
      else together c mem r q
    c.next p (here p) ((c.recvs p).map fun q => c.out q (here q) p)

/-- Memories at the moment of exchange `r`. -/
def here (c : Sys V T σ) (mem : ℕ → σ) (r p : ℕ) : σ :=
  if r = 0 then together c mem r p
  else if c.coll (r - 1) then c.absorb p (together c mem r p) ((List.range c.m).map fun u => c.give u (together c mem r u))
  else together c mem r p

/-- Dictionaries of different processors fit: `q` is sent to by `p` exactly if it expects a message of `p`. -/
structure Fits (c : Sys V T σ) : Prop where
  fits : ∀ p q, p < c.m → (q ∈ c.sends p ↔ q < c.m ∧ p ∈ c.recvs q)
  known : ∀ p q, p < c.m → q ∈ c.recvs p → q < c.m

/-- Either `Isend`s are waited for or there is a collective operation between any two of the `R` exchanges. -/
def Safe (c : Sys V T σ) (R : ℕ) : Prop := c.waitSends = true ∨ ∀ r, r + 1 < R → c.coll r = true

/-- All exchanges of the run are done. -/
def Done (c : Sys V T σ) (R : ℕ) (s : St V T σ) : Prop := ∀ p, p < c.m → s.round p = R ∧ s.waiting p = false

end Verif.ParGhost
