import Verif.Flux.Model

/-!
# Vocabulary for flux properties
-/

namespace Verif.Flux

variable {K : Type*} [Field K] [LinearOrder K] {N : ℕ}

/-- Adjacent edges point at each other and no edge is its own neighbour (what property C05 says of a built mesh). -/
def Symmetric (nbr : Edge N → Option (Edge N)) : Prop := ∀ e m, nbr e = some m → nbr m = some e ∧ m ≠ e

/-- What flows out of one side of an interior edge flows into the other. -/
def Balanced (nbr : Edge N → Option (Edge N)) (work : Edge N → Q3 K) : Prop :=
  ∀ e m, nbr e = some m → work m = ⟨-(work e).w, -(work e).x, -(work e).y⟩

/-- Rate of change of the water volume of the triangles this process owns, from the stage updates. -/
def volumeRate (D : Dom N K) (upd : Fin N → Q3 K) : K := ∑ k, if D.full k then D.area k * (upd k).w else 0

/-- Position of an edge in the numbering `3*k+i`. -/
def pos (e : Edge N) : ℕ := 3 * e.1.1 + e.2.1

/-- The geometry seen from the two sides of an interior edge agrees: same length, opposite normals, and the same river
wall (or none). -/
structure Conforming (D : Dom N K) : Prop where
  symm : Symmetric D.nbr
  normal : ∀ e m, D.nbr e = some m → D.normal m = (-(D.normal e).1, -(D.normal e).2)
  len : ∀ e m, D.nbr e = some m → D.len m = D.len e
  wall : ∀ e m, D.nbr e = some m → D.wall m = D.wall e
  wallElev : ∀ e m, D.nbr e = some m → D.wall e → D.wallElev (wallRank D m - 1) = D.wallElev (wallRank D e - 1)
  wallProps : ∀ e m, D.nbr e = some m → D.wall e → D.wallProps (wallRank D m - 1) = D.wallProps (wallRank D e - 1)

/-- At a river wall edge, heads that are exactly equal on both sides are either zero or at least `1e-100`, and the
submergence ratio at which the weir formula stops being used is at most one. (The formula is one-sided otherwise.) -/
def HeadsOk (x : EdgeIn K) : Prop :=
  match x.wall with
  | none => True
  | some (_, p) =>
    max (x.wcl - zHalf x) 0 = max (x.wcr - zHalf x) 0 →
      max (x.wcl - zHalf x) 0 = 0 ∨ (1 / 10 ^ 100 ≤ max (x.wcl - zHalf x) 0 ∧ p.s2 ≤ 1)

/-- Unit normals. -/
def Unit (n1 n2 : K) : Prop := n1 * n1 + n2 * n2 = 1

/-- Wave speed the flux function reports at an edge. -/
def edgeSpeed (c : Consts K) (D : Dom N K) (e : Edge N) : K := (edgeCompute c (edgeIn D e (wallRank D e - 1))).speed

/-- Water volume above the bed in the triangles this process owns; the state lists stage, x- and y-momentum. -/
def volume (full : Fin N → Bool) (area bed : Fin N → K) (q : Fin N × Fin 3 → K) : K :=
  ∑ k, if full k then area k * (q (k, 0) - bed k) else 0

/-- A sequence of flux computations: each with its own domain data, call number, substep flag and `timestep` argument. -/
structure FluxCall (N : ℕ) (K : Type*) where
  D : Dom N K
  call : ℤ
  first : Bool
  dt : K

/-- Arrays left behind by a sequence of calls. -/
def runCalls (c : Consts K) (s : FSt N K) (L : List (FluxCall N K)) : FSt N K :=
  L.foldl (fun s x => (computeFluxes c x.D x.call x.first x.dt s).st) s

end Verif.Flux
