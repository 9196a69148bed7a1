import Verif.Extrap.Model
import Verif.Flux.Spec

/-!
# Vocabulary for the distribution step
-/

namespace Verif.Extrap

open Verif.Flux (Q3 Edge Dom)

variable {K : Type*} [Field K] [LinearOrder K] {N : ℕ}

/-- The triangles whose centroid values the reconstruction on `k` may use: `k` and its neighbours. -/
def Near (nbr : Edge N → Option (Edge N)) (k j : Fin N) : Prop := j = k ∨ ∃ i m, nbr (k, i) = some m ∧ m.1 = j

/-- The edge midpoints average to the centroid. -/
def Centred (G : Geo N K) : Prop :=
  ∀ k, (∑ i, G.ex (k, i)) = 3 * G.cx k ∧ (∑ i, G.ey (k, i)) = 3 * G.cy k

/-- No triangle is its own neighbour. -/
def NoSelf (nbr : Edge N → Option (Edge N)) : Prop := ∀ e m, nbr e = some m → m.1 ≠ e.1

/-- Number of boundary edges of a triangle, stated without the model. -/
def boundaryEdges (nbr : Edge N → Option (Edge N)) (k : Fin N) : ℕ :=
  (Finset.univ.filter (fun i : Fin 3 => nbr (k, i) = none)).card

/-- A lake at rest with surface level `W`: no momentum, the surface is at `W` where the bed is below it and on the bed
elsewhere. -/
structure Lake (W : K) (c : Cent N K) : Prop where
  stage : ∀ k, c.stage k = max W (c.bed k)
  xm : ∀ k, c.xm k = 0
  ym : ∀ k, c.ym k = 0

/-- A jump `δ` from triangle `k` to triangle `j`, continued linearly to the edges of `k`, is zero or goes against the
direction of the jump by more than `1e-100` on some edge. (The edge midpoints surround the centroid, so that only jumps of
size about `1e-100` are excluded.) -/
def Resolved (G : Geo N K) (k j : Fin N) (δ : K) : Prop :=
  δ = 0 ∨ ∃ i, |δ| * (((G.cx j - G.cx k) * (G.ex (k, i) - G.cx k) + (G.cy j - G.cy k) * (G.ey (k, i) - G.cy k)) /
    ((G.cx j - G.cx k) ^ 2 + (G.cy j - G.cy k) ^ 2)) < -(1 / 10 ^ 100)

/-- Where a shoreline separates a triangle with two boundary edges from its only neighbour, the jumps of level and depth are
not of size `1e-100`. -/
def CornersOk (W : K) (G : Geo N K) (bed : Fin N → K) : Prop :=
  ∀ k i m, boundaryEdges G.nbr k = 2 → G.nbr (k, i) = some m → (bed k < W ↔ bed m.1 < W) ∨
    (Resolved G k m.1 (max W (bed m.1) - max W (bed k)) ∧ Resolved G k m.1 (max (W - bed m.1) 0 - max (W - bed k) 0))

/-- `a`, `b` is the gradient of the plane through the values `q` at the centroids around `k` (a boundary edge contributes
`k` itself). -/
def Plane (G : Geo N K) (q : Fin N → K) (k : Fin N) (a b : K) : Prop :=
  ∀ i, q (surr G (k, i)) - q (surr G (k, 0)) =
    a * (G.cx (surr G (k, i)) - G.cx (surr G (k, 0))) + b * (G.cy (surr G (k, i)) - G.cy (surr G (k, 0)))

/-- No decrease of such a plane from a centroid to an edge is of size `1e-100` or less without being zero. -/
def NoTiny (G : Geo N K) (q : Fin N → K) : Prop :=
  ∀ k a b, Plane G q k a b → ∀ i, 0 ≤ a * (G.ex (k, i) - G.cx k) + b * (G.ey (k, i) - G.cy k) ∨
    a * (G.ex (k, i) - G.cx k) + b * (G.ey (k, i) - G.cy k) < -(1 / 10 ^ 100)

/-- The limiter parameters keep shorelines in place: none at dry triangles, or all at most one (and no jumps of size
`1e-100`). -/
def ShoresOk (p : Params K) (W : K) (G : Geo N K) (bed : Fin N → K) : Prop :=
  p.betaWDry = 0 ∨ (p.betaWDry ≤ 1 ∧ p.betaW ≤ 1 ∧ Centred G ∧ NoTiny G (fun k => max W (bed k)) ∧
    NoTiny G (fun k => max (W - bed k) 0))

/-- Outward normals times lengths of the edges of each triangle cancel. -/
def Closed (D : Dom N K) : Prop :=
  ∀ k, (∑ i, D.len (k, i) * (D.normal (k, i)).1) = 0 ∧ (∑ i, D.len (k, i) * (D.normal (k, i)).2) = 0

end Verif.Extrap
