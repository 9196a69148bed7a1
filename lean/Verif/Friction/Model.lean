import Verif.Quantity.Model

/-!
# Model of Manning friction

Sources
* `/repo/anuga/shallow_water/sw_domain_orig.c` 2805-2838 (`_manning_friction_flat`), 2840-2886 (`_manning_friction_sloped`)
* `/repo/anuga/shallow_water/sw_domain_openmp.c` 1954-1986 and 1988-2036 (the same with OpenMP)
* `/repo/anuga/shallow_water/friction.py` 33-73 (`manning_friction_implicit_cpu`)

Simplifications
* exact ordered field; `sqrt` and `pow(h, 7/3)` are parameters;
* the OpenMP loops are modelled as interleavings of atomic reads and writes of the variables that are missing from the
  `private` clause; weaker memory effects are not modelled.
-/

namespace Verif.Friction

variable {K : Type*} [Field K] [LinearOrder K]

/-- Constants and mathematical functions. `eps` is `domain.minimum_allowed_height`, `friction.py` 65. -/
structure FC (K : Type*) where
  g : K
  eps : K
  sqrt : K → K
  /-- `pow(h, 7/3)` -/
  pow73 : K → K

/-- Centroid data of one triangle. -/
structure Cell (K : Type*) where
  /-- stage -/
  w : K
  /-- centroid elevation -/
  z : K
  uh : K
  vh : K
  /-- friction coefficient -/
  eta : K
  /-- vertex coordinates -/
  x0 : K
  y0 : K
  x1 : K
  y1 : K
  x2 : K
  y2 : K
  /-- vertex elevations -/
  z0 : K
  z1 : K
  z2 : K

/-- Body of `_manning_friction_flat`, 2816-2837: semi-implicit updates of the two momenta before and after. -/
def flat (c : FC K) (d : Cell K) (u : K × K) : K × K :=
  if d.eta > c.eps then
    let h := d.w - d.z
    if h ≥ c.eps then
      let S := -c.g * d.eta * d.eta * c.sqrt (d.uh * d.uh + d.vh * d.vh)
      let S := S / c.pow73 h
      (u.1 + S * d.uh, u.2 + S * d.vh)
    else u
  else u

/-- Body of `_manning_friction_sloped`, 2852-2885. -/
def sloped (c : FC K) (d : Cell K) (u : K × K) : K × K :=
  if d.eta > c.eps then
    let s := Quantity.gradient d.x0 d.y0 d.x1 d.y1 d.x2 d.y2 d.z0 d.z1 d.z2
    let zs := c.sqrt (1 + s.1 * s.1 + s.2 * s.2)
    let z := (d.z0 + d.z1 + d.z2) * (1 / 3)
    let h := d.w - z
    if h ≥ c.eps then
      let S := -c.g * d.eta * d.eta * zs * c.sqrt (d.uh * d.uh + d.vh * d.vh)
      let S := S / c.pow73 h
      (u.1 + S * d.uh, u.2 + S * d.vh)
    else u
  else u

/-- `manning_friction_implicit_cpu`, 68-73: choice by `use_sloped_mannings`. -/
def friction (c : FC K) (useSloped : Bool) (d : Cell K) (u : K × K) : K × K :=
  if useSloped then sloped c d u else flat c d u

/-- Momentum updates of a whole domain by one call of `_manning_friction_*` followed by `update_conserved_quantities`; `ex`,
`ey` are the explicit updates. Result: success and new values for x and y momentum. -/
def advance (c : FC K) (useSloped : Bool) (dt : K) (cells : List (Cell K × K × K)) :
    (Bool × List (Quantity.Cell K)) × (Bool × List (Quantity.Cell K)) :=
  (Quantity.update dt (cells.map (fun d => ⟨d.1.uh, d.2.1, (friction c useSloped d.1 (0, 0)).1⟩)),
    Quantity.update dt (cells.map (fun d => ⟨d.1.vh, d.2.2, (friction c useSloped d.1 (0, 0)).2⟩)))

/-! ## Parallel loops -/

/-- State of a parallel loop over `N` iterations: shared variables `σ`, private variables `ρ`, and how many atomic actions
each iteration has done. -/
structure Par (N : ℕ) (σ ρ : Type*) where
  sh : σ
  loc : Fin N → ρ
  pc : Fin N → ℕ

variable {N : ℕ} {σ ρ : Type*}

/-- Iteration `k` performs its next action. -/
def Par.step (ops : List (Fin N → σ → ρ → σ × ρ)) (s : Par N σ ρ) (k : Fin N) : Par N σ ρ :=
  match ops[s.pc k]? with
  | none => s
  | some f =>
    let r := f k s.sh (s.loc k)
    { sh := r.1, loc := Function.update s.loc k r.2, pc := Function.update s.pc k (s.pc k + 1) }

/-- Actions in the order of a schedule. -/
def Par.run (ops : List (Fin N → σ → ρ → σ × ρ)) (s : Par N σ ρ) (sched : List (Fin N)) : Par N σ ρ :=
  sched.foldl (Par.step ops) s

/-- Private variables of the flat loop: `S`, and the two updates of the iteration's own triangle. -/
structure Loc (K : Type*) where
  xu : K
  yu : K
  x0 : K
  y0 : K
  x1 : K
  y1 : K
  x2 : K
  y2 : K

/-- Rest of the body of `_openmp_manning_friction_flat` once `abs_mom` has been read, 1967-1984. -/
def flatFinish (c : FC K) (d : Cell K) (absMom : K) (u : K × K) : K × K :=
  let S := if d.eta > c.eps then
      (if d.w - d.z ≥ c.eps then -c.g * d.eta * d.eta * absMom / c.pow73 (d.w - d.z) else 0)
    else 0
  (u.1 + S * d.uh, u.2 + S * d.vh)

/-- `_openmp_manning_friction_flat`, 1954-1986. `abs_mom` is not in the `private` clause, so it is shared: it is written
(1966) and later read (1973). -/
def flatOps (c : FC K) (cells : Fin N → Cell K) : List (Fin N → K → Loc K → K × Loc K) :=
  [fun k _ l => (c.sqrt ((cells k).uh * (cells k).uh + (cells k).vh * (cells k).vh), l),
   fun k m l =>
    let r := flatFinish c (cells k) m (l.xu, l.yu)
    (m, { l with xu := r.1, yu := r.2 })]

/-- Rest of the body of `_openmp_manning_friction_sloped`, 2018-2034. -/
def slopedFinish (c : FC K) (d : Cell K) (l : Loc K) (z : K) (u : K × K) : K × K :=
  let S := if d.eta > c.eps then
      (let s := Quantity.gradient l.x0 l.y0 l.x1 l.y1 l.x2 l.y2 d.z0 d.z1 d.z2
       if d.w - z ≥ c.eps then
        -c.g * d.eta * d.eta * c.sqrt (1 + s.1 * s.1 + s.2 * s.2) * c.sqrt (d.uh * d.uh + d.vh * d.vh) / c.pow73 (d.w - z)
       else 0)
    else 0
  (u.1 + S * d.uh, u.2 + S * d.vh)

/-- `_openmp_manning_friction_sloped`, 1988-2036. `k6` and `z` are not in the `private` clause: `k6` is written (2009) and
read (2011-2016), `z` is written (2022) and read (2023). The shared variables are `(k6/6, z)`. -/
def slopedOps (c : FC K) (cells : Fin N → Cell K) : List (Fin N → Fin N × K → Loc K → (Fin N × K) × Loc K) :=
  [fun k s l => ((k, s.2), l),
   fun _ s l =>
    let d := cells s.1
    (s, { l with x0 := d.x0, y0 := d.y0, x1 := d.x1, y1 := d.y1, x2 := d.x2, y2 := d.y2 }),
   fun k s l =>
    let d := cells k
    (if d.eta > c.eps then (s.1, (d.z0 + d.z1 + d.z2) * (1 / 3)) else s, l),
   fun k s l =>
    let r := slopedFinish c (cells k) l s.2 (l.xu, l.yu)
    (s, { l with xu := r.1, yu := r.2 })]

/-- Start of a parallel loop with given updates. -/
def start (sh : σ) (xu yu : Fin N → K) : Par N σ (Loc K) :=
  { sh := sh, loc := fun k => ⟨xu k, yu k, 0, 0, 0, 0, 0, 0⟩, pc := fun _ => 0 }

/-- What thread owns which iteration under `schedule(static)`, and whether a schedule respects it: an iteration starts only
after the lower-numbered ones of its thread have finished. -/
def Respects (len : ℕ) (thread : Fin N → ℕ) (sched : List (Fin N)) : Prop :=
  ∀ pre k post, sched = pre ++ k :: post → ∀ j < k, thread j = thread k → len ≤ pre.count j

end Verif.Friction
