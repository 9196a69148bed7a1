import Verif.Basic
import Mathlib.Data.Fintype.BigOperators

/-!
# Model of the flux computation of the shallow water domain

Sources
* `/repo/anuga/shallow_water/sw_domain_orig.c` 36-57 (`_rotate`), 284-504 (`_flux_function_central`),
  671-762 (`adjust_edgeflux_with_weir`), 765-1148 (`_compute_fluxes_central`)
* `/repo/anuga/shallow_water/sw_domain_openmp.c` 63-268 (same flux function), 324-415 (weir), 455-766
  (`_openmp_compute_fluxes_central`)
* `/repo/anuga/shallow_water/boundaries.py` 80-165 (reflective boundary)

Simplifications
* exact ordered field; `sqrt` and `pow(.,0.385)` are parameters of the model;
* triangles are `Fin N`, edges `Fin N × Fin 3`; `neighbours`/`neighbour_edges` are one map to an optional edge, and the
  boundary values are looked up by edge instead of by boundary number;
* the three additions per triangle are written as a finite sum;
* unused arguments (`hc`, `hc_n`, `limiting_threshold` of the flux function) are dropped.
-/

namespace Verif.Flux

variable {K : Type*} [Field K] [LinearOrder K]

/-- Stage, x-momentum, y-momentum. -/
structure Q3 (K : Type*) where
  w : K
  x : K
  y : K
  deriving DecidableEq

/-- `_rotate`, `sw_domain_orig.c` 36-57. -/
def rotate (q : Q3 K) (n1 n2 : K) : Q3 K := ⟨q.w, n1 * q.x + n2 * q.y, -n2 * q.x + n1 * q.y⟩

/-- Constants and library functions used by the flux function. -/
structure Consts (K : Type*) where
  g : K
  eps : K
  lowFroude : ℕ
  sqrt : K → K
  pow385 : K → K

/-- Velocity and rescaled momentum of one side, lines 352-388: `(u, uh, v, vh)` from the rotated momenta. -/
def sideVel (h he qx qy : K) : K × K × K × K :=
  if he > 0 then
    let tmp := 1 / he
    let u := qx * tmp
    (u, h * u, qy * tmp, h * tmp * qy)
  else (0, 0, 0, 0)

/-- `local_fr`, lines 405-421. -/
def localFr (c : Consts K) (ul vl ur vr cl cr : K) : K :=
  let ratio := (ur * ur + ul * ul + vr * vr + vl * vl) / (cl * cl + cr * cr + 1 / 10 ^ 10)
  if c.lowFroude = 1 then c.sqrt (max (1 / 1000) (min 1 ratio))
  else if c.lowFroude = 2 then
    c.sqrt (min 1 (1 / 100 + max (c.sqrt ratio - 1 / 100) 0))
  else 1

/-- What the flux function returns: edge flux, maximal speed, pressure flux. -/
structure FluxOut (K : Type*) where
  flux : Q3 K
  speed : K
  press : K

/-- `_flux_function_central`, `sw_domain_orig.c` 284-504. -/
def fluxCentral (c : Consts K) (ql qr : Q3 K) (hl hr hle hre n1 n2 ze : K) : FluxOut K :=
  if hl = 0 ∧ hr = 0 then ⟨⟨0, 0, 0⟩, 0, 0⟩
  else
    let l := rotate ql n1 n2
    let r := rotate qr n1 n2
    let (ul, uhl, vl, vhl) := sideVel hl hle l.x l.y
    let (ur, uhr, vr, vhr) := sideVel hr hre r.x r.y
    let cl := c.sqrt (c.g * hl)
    let cr := c.sqrt (c.g * hr)
    let fr := localFr c ul vl ur vr cl cr
    let smax0 := max (ul + cl) (ur + cr)
    let smax := if smax0 < 0 then 0 else smax0
    let smin0 := min (ul - cl) (ur - cr)
    let smin := if smin0 > 0 then 0 else smin0
    let denom := smax - smin
    if denom < c.eps then ⟨⟨0, 0, 0⟩, 0, 1 / 2 * c.g * (1 / 2) * (hl * hl + hr * hr)⟩
    else
      let inv := 1 / max denom (1 / 10 ^ 100)
      let f0 := (smax * (ul * hl) - smin * (ur * hr) + smax * smin * (max r.w ze - max l.w ze)) * inv
      let f1 := (smax * (ul * uhl) - smin * (ur * uhr) + fr * (smax * smin) * (uhr - uhl)) * inv
      let f2 := (smax * (ul * vhl) - smin * (ur * vhr) + fr * (smax * smin) * (vhr - vhl)) * inv
      ⟨rotate ⟨f0, f1, f2⟩ n1 (-n2), max smax (-smin),
        1 / 2 * c.g * (smax * hl * hl - smin * hr * hr) * inv⟩

/-- Hydraulic properties of a river wall segment. -/
structure WallProps (K : Type*) where
  qfactor : K
  s1 : K
  s2 : K
  h1 : K
  h2 : K

/-- Blend of the weir discharge `rw` with the shallow water flux, `sw_domain_orig.c` 721-748. -/
def weirBlend (f : Q3 K) (rw hdRat hdWr : K) (p : WallProps K) : Q3 K :=
  if hdRat < p.s2 ∧ hdWr < p.h2 then
    let w1 := min (max (hdRat - p.s1) 0 / (p.s2 - p.s1)) 1
    let w2 := min (max (hdWr - p.h1) 0 / (p.h2 - p.h1)) 1
    let newF := (rw * (1 - w1) + w1 * f.w) * (1 - w2) + w2 * f.w
    let sc0 := if |f.w| > 1 / 10 ^ 100 then newF / f.w else 0
    let sc := max sc0 0
    ⟨newF, f.x * min sc 10, f.y * min sc 10⟩
  else f

/-- `adjust_edgeflux_with_weir`, `sw_domain_orig.c` 671-762: new edge flux and maximal speed. -/
def weir (c : Consts K) (f : Q3 K) (speed hl hr wh : K) (p : WallProps K) : Q3 K × K :=
  let minhd := min hl hr
  let maxhd := max hl hr
  let rw0 := p.qfactor * (2 / 3) * maxhd * c.sqrt (2 / 3 * c.g * maxhd)
  let rw2 := p.qfactor * (2 / 3) * minhd * c.sqrt (2 / 3 * c.g * minhd)
  let rwRat := rw2 / max rw0 (1 / 10 ^ 100)
  let hdRat := minhd / max maxhd (1 / 10 ^ 100)
  let hdWr := minhd / max wh (1 / 10 ^ 100)
  let rw1 := rw0 * c.pow385 (1 - rwRat)
  let rw := if hr > hl then -rw1 else rw1
  let f' := weirBlend f rw hdRat hdWr p
  (f', if |f'.w| > 0 then c.sqrt (c.g * (maxhd + wh)) + |f'.w / (maxhd + 1 / 10 ^ 12)| else speed)

/-- Everything `_compute_fluxes_central` reads for one edge (left = the triangle it is visited from). -/
structure EdgeIn (K : Type*) where
  ql : Q3 K
  qr : Q3 K
  zl : K
  zr : K
  hle : K
  hre : K
  hcl : K
  hcr : K
  zcl : K
  zcr : K
  /-- first order heads for the weir: left centroid stage and what replaces it on the right -/
  wcl : K
  wcr : K
  n1 : K
  n2 : K
  len : K
  wall : Option (K × WallProps K)

/-- Results for one edge. -/
structure EdgeOut (K : Type*) where
  /-- `edgeflux` after multiplication with the edge length -/
  flux : Q3 K
  /-- `pressuregrad_work` of the visiting triangle and of the neighbour -/
  pgl : K
  pgr : K
  speed : K

/-- Bed level at the edge, lines 888-905. -/
def zHalf (x : EdgeIn K) : K :=
  match x.wall with
  | none => max x.zl x.zr
  | some (elev, _) => max elev (max x.zl x.zr)

/-- Body of the edge loop, `sw_domain_orig.c` 887-1046. -/
def edgeCompute (c : Consts K) (x : EdgeIn K) : EdgeOut K :=
  let zh := zHalf x
  let hl := max (x.hle + x.zl - zh) 0
  let hr := max (x.hre + x.zr - zh) 0
  let o := fluxCentral c x.ql x.qr hl hr x.hle x.hre x.n1 x.n2 zh
  let (f, speed) := match x.wall with
    | none => (o.flux, o.speed)
    | some (elev, p) =>
      if elev > max x.zcl x.zcr then
        let a := max (x.wcl - zh) 0
        let b := max (x.wcr - zh) 0
        if a > 0 ∨ b > 0 then weir c o.flux o.speed a b (max (elev - min x.zl x.zr) 0) p
        else (o.flux, o.speed)
      else (o.flux, o.speed)
  { flux := ⟨f.w * x.len, f.x * x.len, f.y * x.len⟩
    pgl := x.len * (-c.g * (1 / 2) * (hl * hl - x.hle * x.hle - (x.hle + x.hcl) * (x.zl - x.zcl)) + o.press)
    pgr := x.len * (-c.g * (1 / 2) * (hr * hr - x.hre * x.hre - (x.hre + x.hcr) * (x.zr - x.zcr)) + o.press)
    speed := speed }

/-- Edges of a mesh with `N` triangles. -/
abbrev Edge (N : ℕ) := Fin N × Fin 3

/-- The part of the domain read by the flux computation. -/
structure Dom (N : ℕ) (K : Type*) where
  /-- `neighbours` and `neighbour_edges` -/
  nbr : Edge N → Option (Edge N)
  /-- boundary values of stage and momenta, by edge -/
  bval : Edge N → Q3 K
  qE : Edge N → Q3 K
  bedE : Edge N → K
  heightE : Edge N → K
  stageC : Fin N → K
  bedC : Fin N → K
  heightC : Fin N → K
  normal : Edge N → K × K
  len : Edge N → K
  area : Fin N → K
  radius : Fin N → K
  full : Fin N → Bool
  /-- `edge_flux_type == 1` -/
  wall : Edge N → Bool
  wallElev : ℕ → K
  wallProps : ℕ → WallProps K
  /-- `update_next_flux == 1` -/
  update : Edge N → Bool
  /-- `allow_timestep_increase[0] == 1` -/
  allowIncrease : Bool

variable {N : ℕ}

/-- The values read for edge `e` when its river wall number is `wn` (`RiverWall_count - 1`), lines 850-886. -/
def edgeIn (D : Dom N K) (e : Edge N) (wn : ℕ) : EdgeIn K :=
  let base : EdgeIn K :=
    { ql := D.qE e, qr := D.bval e, zl := D.bedE e, zr := D.bedE e, hle := D.heightE e,
      hre := max ((D.bval e).w - D.bedE e) 0, hcl := D.heightC e.1, hcr := D.heightC e.1, zcl := D.bedC e.1,
      zcr := D.bedC e.1, wcl := D.stageC e.1, wcr := D.heightC e.1 + D.bedE e, n1 := (D.normal e).1,
      n2 := (D.normal e).2, len := D.len e,
      wall := if D.wall e then some (D.wallElev wn, D.wallProps wn) else none }
  match D.nbr e with
  | none => base
  | some m =>
    { base with
      qr := D.qE m, zr := D.bedE m, hre := D.heightE m, hcr := D.heightC m.1, zcr := D.bedC m.1, wcr := D.stageC m.1 }

/-- Arrays that survive from call to call (`already_computed_flux`, work arrays, `edge_timestep`, the static
`local_timestep`, `max_speed`) and the running counter of river wall edges. -/
structure FSt (N : ℕ) (K : Type*) where
  mark : Edge N → ℤ
  work : Edge N → Q3 K
  pg : Edge N → K
  edgeTs : Edge N → K
  localTs : K
  maxSpeed : Fin N → K
  wallCount : ℕ

def Q3.neg (q : Q3 K) : Q3 K := ⟨-q.w, -q.x, -q.y⟩

/-- One iteration of the edge loop, `sw_domain_orig.c` 835-1081. `call` is the static call counter, `first` says
`substep_count == 0`. -/
def edgeStep (c : Consts K) (D : Dom N K) (call : ℤ) (first : Bool) (s : FSt N K) (e : Edge N) : FSt N K :=
  if s.mark e = call ∨ D.update e = false then
    if D.wall e then { s with wallCount := s.wallCount + 1 } else s
  else
    let wc := if D.wall e then s.wallCount + 1 else s.wallCount
    let o := edgeCompute c (edgeIn D e (wc - 1))
    let s1 : FSt N K :=
      { s with wallCount := wc, work := Function.update s.work e o.flux.neg, pg := Function.update s.pg e o.pgl,
               mark := Function.update s.mark e call }
    let s2 : FSt N K := match D.nbr e with
      | none => s1
      | some m =>
        { s1 with work := Function.update s1.work m o.flux, pg := Function.update s1.pg m o.pgr,
                  mark := Function.update s1.mark m call }
    if first then
      let tmp := 1 / max o.speed c.eps
      let ts1 := Function.update s2.edgeTs e (D.radius e.1 * tmp)
      let ms1 := s2.maxSpeed
      let (ts2, ms2) := match D.nbr e with
        | none => (ts1, ms1)
        | some m =>
          (Function.update ts1 m (D.radius m.1 * tmp),
            if D.full e.1 then Function.update ms1 m.1 (max (ms1 m.1) o.speed) else ms1)
      if D.full e.1 then
        let ms3 := Function.update ms2 e.1 (max (ms2 e.1) o.speed)
        let lt := if o.speed > c.eps then
            let l1 := min s2.localTs (ts2 e)
            match D.nbr e with
            | none => l1
            | some m => min l1 (ts2 m)
          else s2.localTs
        { s2 with edgeTs := ts2, maxSpeed := ms3, localTs := lt }
      else { s2 with edgeTs := ts2, maxSpeed := ms2 }
    else s2

/-- The order in which edges are visited. -/
def edgeList (N : ℕ) : List (Edge N) :=
  (List.finRange N).flatMap (fun k => (List.finRange 3).map (fun i => (k, i)))

/-- Result of a flux computation. -/
structure FluxRes (N : ℕ) (K : Type*) where
  st : FSt N K
  /-- explicit updates of stage, x- and y-momentum -/
  upd : Fin N → Q3 K
  /-- amount added to `boundary_flux_sum[substep_count]` -/
  bsum : K
  timestep : K

/-- Edge counted in the boundary flux, lines 1120-1124. -/
def isOuter (D : Dom N K) (e : Edge N) : Bool :=
  match D.nbr e with
  | none => D.full e.1
  | some m => D.full e.1 && !D.full m.1

/-- Second part, lines 1103-1142: sum up and divide by the area. -/
def sumUp (D : Dom N K) (work : Edge N → Q3 K) (pg : Edge N → K) (k : Fin N) : Q3 K :=
  ⟨(∑ i, (work (k, i)).w) * (1 / D.area k),
   (∑ i, ((work (k, i)).x - (D.normal (k, i)).1 * pg (k, i))) * (1 / D.area k),
   (∑ i, ((work (k, i)).y - (D.normal (k, i)).2 * pg (k, i))) * (1 / D.area k)⟩

/-- `_compute_fluxes_central`, `sw_domain_orig.c` 765-1148. `dtIn` is the argument `timestep`. -/
def computeFluxes (c : Consts K) (D : Dom N K) (call : ℤ) (first : Bool) (dtIn : K) (s0 : FSt N K) : FluxRes N K :=
  let s1 : FSt N K := { s0 with maxSpeed := fun _ => 0, wallCount := 0,
                                localTs := if D.allowIncrease then 10 ^ 100 else s0.localTs }
  let s := (edgeList N).foldl (edgeStep c D call first) s1
  { st := s
    upd := sumUp D s.work s.pg
    bsum := ∑ e, if isOuter D e then (s.work e).w else 0
    timestep := if first then s.localTs else dtIn }

/-! ## The parallel version -/

/-- Weir adjustment with the guard inside, `sw_domain_openmp.c` 324-415. -/
def weirMp (c : Consts K) (f : Q3 K) (speed hl hr wh : K) (p : WallProps K) : Q3 K × K :=
  if hl ≤ 0 ∧ hr ≤ 0 then (f, speed) else weir c f speed hl hr wh p

/-- Body of the edge loop, `sw_domain_openmp.c` 540-673: flux into the visiting triangle, pressure term, speed. -/
def edgeComputeMp (c : Consts K) (x : EdgeIn K) : Q3 K × K × K :=
  let zh := zHalf x
  let hl := max (x.hle + x.zl - zh) 0
  let hr := max (x.hre + x.zr - zh) 0
  let o := fluxCentral c x.ql x.qr hl hr x.hle x.hre x.n1 x.n2 zh
  let (f, speed) := match x.wall with
    | none => (o.flux, o.speed)
    | some (elev, p) =>
      let a := max (x.wcl - zh) 0
      let b := max (x.wcr - zh) 0
      if elev > max x.zcl x.zcr then weirMp c o.flux o.speed a b (max (elev - min x.zl x.zr) 0) p
      else (o.flux, o.speed)
  (⟨-f.w * x.len, -f.x * x.len, -f.y * x.len⟩,
    x.len * (-c.g * (1 / 2) * (hl * hl - x.hle * x.hle - (x.hle + x.hcl) * (x.zl - x.zcl)) + o.press), speed)

/-- `edge_river_wall_counter[ki]`, `/repo/anuga/structures/riverwall.py` 406-417: rank of the edge among wall edges. -/
def wallRank (D : Dom N K) (e : Edge N) : ℕ :=
  if D.wall e then ((edgeList N).takeWhile (fun a => a ≠ e)).countP (fun a => D.wall a) + 1 else 0

/-- `_openmp_compute_fluxes_central`, `sw_domain_openmp.c` 455-766: every triangle computes its own three edges; the
reductions (minimum of timesteps, sum of boundary fluxes) are order independent in exact arithmetic. -/
def computeFluxesMp (c : Consts K) (D : Dom N K) (first : Bool) (dtIn : K) : (Fin N → Q3 K) × K × K :=
  let o := fun e => edgeComputeMp c (edgeIn D e (wallRank D e - 1))
  (sumUp D (fun e => (o e).1) (fun e => (o e).2.1),
   ∑ e, if isOuter D e then (o e).1.w else 0,
   if first then
     (edgeList N).foldl (fun t e => if D.full e.1 ∧ (o e).2.2 > c.eps then
       min t (D.radius e.1 * 1 / max (o e).2.2 c.eps) else t) (10 ^ 100)
   else dtIn)

/-! ## Substep counting -/

/-- The static counters `call`, `timestep_fluxcalls`, `base_call`, lines 785-801. -/
structure Counter where
  call : ℕ
  fluxcalls : ℕ
  base : ℕ

def counterInit : Counter := ⟨0, 1, 1⟩

/-- One call by a domain whose `timestep_fluxcalls` is `n`: new counters and `substep_count`, lines 791-814. -/
def countCall (s : Counter) (n : ℕ) : Counter × ℕ :=
  let call := s.call + 1
  let s' : Counter := if n ≠ s.fluxcalls then ⟨call, n, call⟩ else ⟨call, s.fluxcalls, s.base⟩
  (s', (s'.call - s'.base) % n)

/-- Substep numbers handed out to a sequence of calls, each given by its domain's `timestep_fluxcalls`. -/
def countCalls (s : Counter) : List ℕ → List ℕ × Counter
  | [] => ([], s)
  | n :: ns =>
    let r := countCalls (countCall s n).1 ns
    ((countCall s n).2 :: r.1, r.2)

/-! ## Boundary flux integral -/

inductive Method where
  | euler
  | rk2
  | rk3
  deriving DecidableEq

/-- `boundary_flux_integral_operator.__call__`, `/repo/anuga/operators/boundary_flux_integral_operator.py` 47-66; the
argument `S` is `boundary_flux_sum`. -/
def fluxIntegral (m : Method) (integral dt : K) (S : Fin 3 → K) : K :=
  match m with
  | .euler => integral + dt * S 0
  | .rk2 => integral + 1 / 2 * dt * (S 0 + S 1)
  | .rk3 => integral + 1 / 6 * dt * (S 0 + S 1 + 4 * S 2)

/-! ## Reflective boundary -/

/-- `Reflective_boundary.evaluate_segment`, `boundaries.py` 143-165 (also `evaluate`). -/
def reflect (q : Q3 K) (n1 n2 : K) : Q3 K :=
  let r1 := -q.x * n1 - q.y * n2
  let r2 := -q.x * n2 + q.y * n1
  ⟨q.w, n1 * r1 - n2 * r2, n2 * r1 + n1 * r2⟩

end Verif.Flux
