import Verif.Erode.Model
import Verif.Erode.ModelFric
import Verif.SetQ.Props

/-!
# Vocabulary for erosion
-/

namespace Verif.Erode

open Verif.SetQ Verif.NodeAvg

variable {K : Type*} [Field K] [LinearOrder K]

/-- Depth of water. -/
def depth (s : State K) (k : ℕ) : K := s.stage k - s.elev k

/-- Same depth everywhere and same momenta: no water and no momentum made or lost. -/
def SameWater (s s' : State K) : Prop := (∀ k, depth s' k = depth s k) ∧ s'.xmom = s.xmom ∧ s'.ymom = s.ymom

/-- Only triangles that satisfy `P` change. -/
def OnlyChanges (P : ℕ → Prop) (s s' : State K) : Prop := ∀ k, ¬ P k → s'.elev k = s.elev k ∧ s'.stage k = s.stage k

/-- The bed at triangle `k` is scoured at rate `stress / factor` where the water is faster than the threshold: `e` is the scour in a
step of length `dt`. The stress is density times gravity times depth times slope of the water surface. -/
def IsShearScour (sq : K → K) (l : Limits K) (factor : K) (slope : ℕ → K) (dt : K) (s : State K) (k : ℕ) (e : K) : Prop :=
  let momentum := sq (s.xmom k ^ 2 + s.ymom k ^ 2)
  let stress := 1000 * (981 / 100) * depth s k * slope k
  (momentum > l.threshold * (depth s k + 1 / 10 ^ 10) ∧ e * factor = stress * dt) ∨
    (momentum ≤ l.threshold * (depth s k + 1 / 10 ^ 10) ∧ e = 0)

/-- A new bed after scour by `e`, with base level `base`: it does not go below the base, it sinks by `e` if there is that much above the base,
otherwise to the base. -/
def Sinks (base old e new : K) : Prop := base ≤ new ∧ old - e ≤ new ∧ (new = old - e ∨ new = base)

/-- The bed is the one that a continuous levelling of the corner values `f` over the region `ids` gives: nodes of the region get the mean of
`f` over their corners inside and of the old values over the others, other nodes stay; corners at a node agree if they did before; centroid
and edge values of the triangles touching the region are means and midpoints, the other triangles do not change. -/
def Levelled (d : Dom K) (ids : List ℕ) (f : ℕ → K) (s s' : State K) : Prop :=
  (∀ c u, d.flat[c]? = some u → (∃ c', c' / 3 ∈ ids ∧ d.flat[c']? = some u) →
    s'.ev c = cornerMean d.flat (fun c => if c / 3 ∈ ids then f c else s.ev c) u) ∧
  (∀ c u, d.flat[c]? = some u → (¬ ∃ c', c' / 3 ∈ ids ∧ d.flat[c']? = some u) → s'.ev c = s.ev c) ∧
  (SetQ.Continuous d s.ev → SetQ.Continuous d s'.ev) ∧
  (∀ k, Touches d ids k → s'.elev k = (s'.ev (3 * k) + s'.ev (3 * k + 1) + s'.ev (3 * k + 2)) / 3 ∧
    s'.ee (3 * k) = (s'.ev (3 * k + 1) + s'.ev (3 * k + 2)) / 2 ∧
    s'.ee (3 * k + 1) = (s'.ev (3 * k + 2) + s'.ev (3 * k)) / 2 ∧ s'.ee (3 * k + 2) = (s'.ev (3 * k) + s'.ev (3 * k + 1)) / 2) ∧
  OnlyChanges (Touches d ids) s s'

end Verif.Erode
