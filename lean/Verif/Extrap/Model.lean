import Verif.Flux.Model

/-!
# Model of the distribution step of the discontinuous elevation schemes

Sources, `/repo/anuga/shallow_water/sw_domain_orig.c`
* 1215-1283 (`_protect_new`), 1286-1304 (`find_qmin_and_qmax`), 1306-1342 (`limit_gradient`),
  1994-2676 (`_extrapolate_second_order_edge_sw`)
* `/repo/anuga/shallow_water/shallow_water_domain.py` 1882-1915 (`distribute_to_vertices_and_edges`)
* `/repo/anuga/abstract_2d_finite_volumes/neighbour_mesh.py` 270-350 (`number_of_boundaries`, `surrogate_neighbours`)

Simplifications
* exact ordered field;
* `update_extrapolation` is 1 everywhere (the default `flux_update_frequency` of 1);
* vertex values, which the flux computation does not read, are left out;
* the error return for "internal neighbour not found" is the value `none` of `inner`; `number_of_boundaries` counts the same
  edges, so it is never reached on a mesh without self-neighbours.
-/

namespace Verif.Extrap

open Verif.Flux (Q3 Edge Dom)

variable {K : Type*} [Field K] [LinearOrder K] {N : ℕ}

/-- Mesh data read by the extrapolation. -/
structure Geo (N : ℕ) (K : Type*) where
  nbr : Edge N → Option (Edge N)
  /-- `centroid_coordinates` -/
  cx : Fin N → K
  cy : Fin N → K
  /-- `edge_coordinates` -/
  ex : Edge N → K
  ey : Edge N → K

/-- Limiter parameters. -/
structure Params (K : Type*) where
  betaW : K
  betaWDry : K
  betaUh : K
  betaUhDry : K
  betaVh : K
  betaVhDry : K
  /-- `minimum_allowed_height` -/
  minH : K
  /-- `extrapolate_velocity_second_order == 1` -/
  vel : Bool

/-- Centroid values. -/
structure Cent (N : ℕ) (K : Type*) where
  stage : Fin N → K
  bed : Fin N → K
  xm : Fin N → K
  ym : Fin N → K
  /-- `height_centroid_values` before the call -/
  h0 : Fin N → K

/-- `surrogate_neighbours`, `neighbour_mesh.py` 321-348. -/
def surr (G : Geo N K) (e : Edge N) : Fin N :=
  match G.nbr e with
  | none => e.1
  | some m => m.1

/-- `number_of_boundaries`, `neighbour_mesh.py` 277-295. -/
def nb (G : Geo N K) (k : Fin N) : ℕ := (List.finRange 3).countP (fun i => (G.nbr (k, i)).isNone)

/-- `find_qmin_and_qmax`, 1286-1304: `(qmin, qmax)`. -/
def qMinMax (dq0 dq1 dq2 : K) : K × K :=
  (min (min dq0 (min (dq0 + dq1) (dq0 + dq2))) 0, max (max dq0 (max (dq0 + dq1) (dq0 + dq2))) 0)

/-- `TINY` in `limit_gradient`. -/
def tiny : K := 1 / 10 ^ 100

/-- One pass of the loop in `limit_gradient`, 1322-1330, on the pair `(r, r0)`. -/
def limStep (qmin qmax : K) (s : K × K) (d : K) : K × K :=
  let a := if d < -tiny then qmin / d else s.2
  let b := if d > tiny then qmax / d else a
  (min b s.1, b)

/-- The factor `phi`, 1332. -/
def limPhi (d : Fin 3 → K) (qmin qmax beta : K) : K :=
  min ((((List.finRange 3).map d).foldl (limStep qmin qmax) (1000, 1)).1 * beta) 1

/-- `limit_gradient`, 1306-1342. -/
def limit (d : Fin 3 → K) (qmin qmax beta : K) : Fin 3 → K := fun i => d i * limPhi d qmin qmax beta

/-- Twice the area of the auxiliary triangle, 2164-2172. -/
def area2 (G : Geo N K) (k : Fin N) : K :=
  let k0 := surr G (k, 0)
  let k1 := surr G (k, 1)
  let k2 := surr G (k, 2)
  (G.cy k2 - G.cy k0) * (G.cx k1 - G.cx k0) - (G.cy k1 - G.cy k0) * (G.cx k2 - G.cx k0)

/-- Provisional edge jumps from the gradient on the auxiliary triangle, e.g. 2232-2250. -/
def jumps (G : Geo N K) (q : Fin N → K) (k : Fin N) (i : Fin 3) : K :=
  let k0 := surr G (k, 0)
  let k1 := surr G (k, 1)
  let k2 := surr G (k, 2)
  let dx1 := G.cx k1 - G.cx k0
  let dx2 := G.cx k2 - G.cx k0
  let dy1 := G.cy k1 - G.cy k0
  let dy2 := G.cy k2 - G.cy k0
  let dq1 := q k1 - q k0
  let dq2 := q k2 - q k0
  let inv := 1 / area2 G k
  let a := (dy2 * dq1 - dy1 * dq2) * inv
  let b := (dx1 * dq2 - dx2 * dq1) * inv
  a * (G.ex (k, i) - G.cx k) + b * (G.ey (k, i) - G.cy k)

/-- Extrapolation of one quantity in the usual case of at most one boundary edge, e.g. 2224-2266. -/
def extrapTypical (G : Geo N K) (q : Fin N → K) (beta : K) (k : Fin N) (i : Fin 3) : K :=
  if beta > 0 then
    let k0 := surr G (k, 0)
    let m := qMinMax (q k0 - q k) (q (surr G (k, 1)) - q k0) (q (surr G (k, 2)) - q k0)
    q k + limit (jumps G q k) m.1 m.2 beta i
  else q k

/-- The only internal neighbour of a triangle with two boundary edges, 2432-2453. -/
def inner (G : Geo N K) (k : Fin N) : Option (Fin N) :=
  ((List.finRange 3).map (fun i => surr G (k, i))).find? (fun j => j ≠ k)

/-- Extrapolation towards a single neighbour, e.g. 2477-2510. -/
def extrapCorner (G : Geo N K) (q : Fin N → K) (beta : K) (k k1 : Fin N) (i : Fin 3) : K :=
  let dx1 := G.cx k1 - G.cx k
  let dy1 := G.cy k1 - G.cy k
  let s := 1 / (dx1 * dx1 + dy1 * dy1)
  let dq1 := q k1 - q k
  let a := dq1 * (s * dx1)
  let b := dq1 * (s * dy1)
  let d : Fin 3 → K := fun i => a * (G.ex (k, i) - G.cx k) + b * (G.ey (k, i) - G.cy k)
  let m : K × K := if dq1 ≥ 0 then (0, dq1) else (dq1, 0)
  q k + limit d m.1 m.2 beta i

/-- Extrapolation of one quantity on triangle `k`; `beta` is used in the usual case, `betaW` at corners. -/
def extrap (G : Geo N K) (q : Fin N → K) (beta betaW : K) (k : Fin N) (i : Fin 3) : K :=
  if nb G k = 3 then q k
  else if nb G k ≤ 1 then
    if area2 G k ≤ 0 then q k else extrapTypical G q beta k i
  else match inner G k with
    | none => q k
    | some k1 => extrapCorner G q betaW k k1 i

/-- `height_centroid_values` during the call, 2022. -/
def height (p : Params K) (c : Cent N K) (k : Fin N) : K :=
  if p.vel then max (c.stage k - c.bed k) 0 else c.h0 k

/-- Triangle surrounded by dry triangles and boundary, 2047-2063. -/
def isolated (G : Geo N K) (p : Params K) (c : Cent N K) (k : Fin N) : Bool :=
  (List.finRange 3).all (fun i => decide (height p c (surr G (k, i)) < p.minH) || decide (surr G (k, i) = k))

/-- Momentum replaced by velocity, 2024-2040 and 2057-2061: what is extrapolated. -/
def carried (G : Geo N K) (p : Params K) (c : Cent N K) (m : Fin N → K) (k : Fin N) : K :=
  if isolated G p c k then 0
  else if p.vel then (if height p c k > p.minH then m k * (1 / height p c k) else 0) else m k

/-- Centroid momentum after the call, 2614-2618. -/
def restored (G : Geo N K) (p : Params K) (c : Cent N K) (m : Fin N → K) (k : Fin N) : K :=
  if isolated G p c k then 0
  else if p.vel then (if height p c k > p.minH then m k else 0) else m k

/-- `hfactor`, 2188-2215; `a_tmp = 0.3`, `b_tmp = 0.1`. -/
def hfactor (G : Geo N K) (p : Params K) (c : Cent N K) (k : Fin N) : K :=
  let hc := height p c k
  let h0 := height p c (surr G (k, 0))
  let h1 := height p c (surr G (k, 1))
  let h2 := height p c (surr G (k, 2))
  let hmin := min (min h0 (min h1 h2)) hc
  let hmax := max (max h0 (max h1 h2)) hc
  let ct : K := 1 / (3 / 10 - 1 / 10)
  let dt : K := 1 - ct * (3 / 10)
  let f := max 0 (min (ct * max hmin 0 / max hc (1 / 10 ^ 6) + dt) (min (ct * max hc 0 / max hmax (1 / 10 ^ 6) + dt) 1))
  min (12 / 10 * max (hmin - p.minH) 0 / (max hmin 0 + 1 * p.minH)) f

/-- `beta_tmp`. -/
def betaTmp (dry wet f : K) : K := dry + (wet - dry) * f

/-- Edge values after the call. -/
structure Edges (N : ℕ) (K : Type*) where
  stage : Edge N → K
  height : Edge N → K
  bed : Edge N → K
  xm : Edge N → K
  ym : Edge N → K

/-- `_extrapolate_second_order_edge_sw`, 1994-2676. -/
def extrapolate (G : Geo N K) (p : Params K) (c : Cent N K) : Edges N K :=
  let f := hfactor G p c
  let bw := fun k => betaTmp p.betaWDry p.betaW (f k)
  let st := fun e : Edge N => extrap G c.stage (bw e.1) p.betaW e.1 e.2
  let ht := fun e : Edge N => extrap G (height p c) (bw e.1) p.betaW e.1 e.2
  let xm := fun e : Edge N => extrap G (carried G p c c.xm) (betaTmp p.betaUhDry p.betaUh (f e.1)) p.betaW e.1 e.2
  let ym := fun e : Edge N => extrap G (carried G p c c.ym) (betaTmp p.betaVhDry p.betaVh (f e.1)) p.betaW e.1 e.2
  { stage := st
    height := ht
    bed := fun e => st e - ht e
    xm := fun e => if p.vel then xm e * ht e else xm e
    ym := fun e => if p.vel then ym e * ht e else ym e }

/-! ## Depth protection -/

/-- Stage and momenta of one cell together with what protection reports. -/
structure Prot (K : Type*) where
  stage : K
  xm : K
  ym : K
  /-- mass added -/
  added : K
  /-- new stage vertex values, if overwritten -/
  vertices : Option K

/-- Loop body of `_protect_new` (and of `_protect`), 1243-1271. -/
def protectCell (minH stage bed xm ym area : K) : Prot K :=
  let hc := stage - bed
  if hc < minH then
    if hc ≤ 0 then
      if stage < bed then ⟨bed, 0, 0, (bed - stage) * area, some bed⟩ else ⟨stage, 0, 0, 0, none⟩
    else ⟨stage, 0, 0, 0, none⟩
  else ⟨stage, xm, ym, 0, none⟩

/-- `_protect_new`, 1215-1283: new centroid values and the returned `mass_error`. -/
def protect (minH : K) (area : Fin N → K) (c : Cent N K) : Cent N K × K :=
  let r := fun k => protectCell minH (c.stage k) (c.bed k) (c.xm k) (c.ym k) (area k)
  ({ c with stage := fun k => (r k).stage, xm := fun k => (r k).xm, ym := fun k => (r k).ym },
    (List.finRange N).foldl (fun s k => s + (r k).added) 0)

/-- `distribute_to_vertices_and_edges`: centroid values and edge values afterwards. -/
def distribute (G : Geo N K) (p : Params K) (area : Fin N → K) (c : Cent N K) : Cent N K × Edges N K :=
  let c1 := (protect p.minH area c).1
  ({ c1 with xm := restored G p c1 c1.xm, ym := restored G p c1 c1.ym, h0 := height p c1 }, extrapolate G p c1)

/-- `_orig_fix_negative_cells`, 2890-2912 (and `_openmp_fix_negative_cells`): run after the conserved quantities have been
updated; only full triangles are touched. New centroid values and the number of triangles repaired. -/
def fixNegative (full : Fin N → Bool) (c : Cent N K) : Cent N K × ℕ :=
  let bad := fun k => decide (c.stage k - c.bed k < 0) && full k
  ({ c with
      stage := fun k => if bad k then c.bed k else c.stage k
      xm := fun k => if bad k then 0 else c.xm k
      ym := fun k => if bad k then 0 else c.ym k },
    (List.finRange N).foldl (fun n k => if bad k then n + 1 else n) 0)

/-! ## OpenMP versions, `sw_domain_openmp.c` -/

/-- Loop body of `_openmp_protect`, 1096-1170. Line 1140 sets the x momentum a second time where the serial routine sets the
y momentum. -/
def protectCellMp (minH stage bed xm ym area : K) : Prot K :=
  let hc := stage - bed
  if hc < minH then
    if hc ≤ 0 then
      if stage < bed then ⟨bed, 0, ym, (bed - stage) * area, some bed⟩ else ⟨stage, 0, ym, 0, none⟩
    else ⟨stage, 0, ym, 0, none⟩
  else ⟨stage, xm, ym, 0, none⟩

/-- `_openmp_protect`, 1096-1170. -/
def protectMp (minH : K) (area : Fin N → K) (c : Cent N K) : Cent N K × K :=
  let r := fun k => protectCellMp minH (c.stage k) (c.bed k) (c.xm k) (c.ym k) (area k)
  ({ c with stage := fun k => (r k).stage, xm := fun k => (r k).xm, ym := fun k => (r k).ym },
    (List.finRange N).foldl (fun s k => s + (r k).added) 0)

/-- Height in the OpenMP routine, 1376: always recomputed. -/
def heightMp (c : Cent N K) (k : Fin N) : K := max (c.stage k - c.bed k) 0

/-- Velocity (or momentum) after the first loop, 1374-1402. -/
def firstMp (p : Params K) (c : Cent N K) (m : Fin N → K) (k : Fin N) : K :=
  let a := if heightMp c k ≤ p.minH then 0 else m k
  if p.vel then (if heightMp c k > p.minH then a * (1 / heightMp c k) else a) else a

/-- Triangle surrounded by dry triangles and boundary, 1486-1488. -/
def isolatedMp (G : Geo N K) (p : Params K) (c : Cent N K) (k : Fin N) : Bool :=
  (List.finRange 3).all (fun i => decide (heightMp c (surr G (k, i)) < p.minH) || decide (surr G (k, i) = k))

/-- Extrapolation of one quantity in the OpenMP routine, 1495-1860: there is no test of the auxiliary area. -/
def extrapMp (G : Geo N K) (q : Fin N → K) (beta betaW : K) (k : Fin N) (i : Fin 3) : K :=
  if nb G k = 3 then q k
  else if nb G k ≤ 1 then extrapTypical G q beta k i
  else match inner G k with
    | none => q k
    | some k1 => extrapCorner G q betaW k k1 i

/-- `_openmp_extrapolate_second_order_edge_sw`, 1334-1950. The second loop (1408) both sets the momentum of isolated triangles
to zero (1491-1494) and reads the momentum of neighbours; which of the two comes first depends on the schedule.
`seen k j` tells whether iteration `k` sees the momentum of triangle `j` after its zeroing. -/
def extrapolateMp (G : Geo N K) (p : Params K) (c : Cent N K) (seen : Fin N → Fin N → Bool) : Edges N K :=
  let pc : Params K := { p with vel := true }
  let f := hfactor G pc c
  let bw := fun k => betaTmp p.betaWDry p.betaW (f k)
  let view := fun (m : Fin N → K) (k j : Fin N) => if isolatedMp G p c j && seen k j then 0 else firstMp p c m j
  let st := fun e : Edge N => extrapMp G c.stage (bw e.1) p.betaW e.1 e.2
  let ht := fun e : Edge N => extrapMp G (heightMp c) (bw e.1) p.betaW e.1 e.2
  let xm := fun e : Edge N => extrapMp G (view c.xm e.1) (betaTmp p.betaUhDry p.betaUh (f e.1)) p.betaW e.1 e.2
  let ym := fun e : Edge N => extrapMp G (view c.ym e.1) (betaTmp p.betaVhDry p.betaVh (f e.1)) p.betaW e.1 e.2
  { stage := st
    height := ht
    bed := fun e => st e - ht e
    xm := fun e => if p.vel then xm e * ht e else xm e
    ym := fun e => if p.vel then ym e * ht e else ym e }

/-- Centroid momentum after the OpenMP routine, 1899-1907. -/
def restoredMp (G : Geo N K) (p : Params K) (c : Cent N K) (m : Fin N → K) (k : Fin N) : K :=
  if isolatedMp G p c k then 0 else if heightMp c k ≤ p.minH then 0 else m k

/-- `distribute_to_vertices_and_edges` in multiprocessor mode 2. -/
def distributeMp (G : Geo N K) (p : Params K) (area : Fin N → K) (c : Cent N K) (seen : Fin N → Fin N → Bool) :
    Cent N K × Edges N K :=
  let c1 := (protectMp p.minH area c).1
  ({ c1 with xm := restoredMp G p c1 c1.xm, ym := restoredMp G p c1 c1.ym, h0 := heightMp c1 }, extrapolateMp G p c1 seen)

/-- The data handed to the flux computation: `base` supplies geometry, river walls and flags, `bv` the boundary values
computed by `update_boundary` from the edge values. -/
def toDom (base : Dom N K) (G : Geo N K) (c : Cent N K) (E : Edges N K) (bv : Edge N → Q3 K) : Dom N K :=
  { base with
    nbr := G.nbr, bval := bv, qE := fun e => ⟨E.stage e, E.xm e, E.ym e⟩, bedE := E.bed, heightE := E.height,
    stageC := c.stage, bedC := c.bed, heightC := c.h0 }

end Verif.Extrap
