import Verif.Mux.Model
import Mathlib.Algebra.Order.Group.Abs

/-!
# Model of `urs2sts` and `create_sts_boundary`

Sources: `/repo/anuga/file_conversion/urs2sts.py` 25-320; `/repo/anuga/file/sts.py` 25-93 (`store_header`), 227-247 (`write_dynamic_quantities`),
257-293 (`create_sts_boundary`).

Simplifications: files are given by their contents; `project` stands for `redfearn` with the given zone and central meridian; arrays of
different length are refused by `allclose` (numpy stretches arrays of length one); names of files, headings of the ordering file and
attributes for people are left out. Ranges are not updated by the code.
-/

namespace Verif.Mux

variable {K : Type} [Field K] [LinearOrder K]

/-- `num.allclose` for two numbers. -/
def near (a b : K) : Bool := decide (|a - b| ≤ 1 / 10 ^ 8 + 1 / 10 ^ 5 * |b|)

/-- `num.allclose`. -/
def allclose (a b : List K) : Bool := a.length == b.length && (a.zip b).all fun x => near x.1 x.2

/-- 183-190. -/
def agrees (a b : Result K) : Bool :=
  allclose a.times b.times && allclose a.lats b.lats && allclose a.lons b.lons && allclose a.elevation b.elevation &&
    near a.starttime b.starttime

structure Options (K : Type) where
  weights : Option (List K)
  perm : Option (List ℕ)
  zone : Option ℤ
  origin : Option (ℤ × K × K)
  mean : K
  zscale : K
  project : K → K → ℤ × K × K

/-- What the file holds. -/
structure StsFile (K : Type) where
  starttime : K
  times : List K
  zone : ℤ
  xll : K
  yll : K
  permutation : List ℕ
  x : List K
  y : List K
  elevation : List K
  stage : List (List K)
  xmomentum : List (List K)
  ymomentum : List (List K)

/-- 295-314: one gauge at one time; stage, momentum in x and in y. -/
def cell (o : Options K) (elev ha ua va : K) : K × K × K :=
  let (ha, ua, va) := if ha = 99 then (0, 0, 0) else (ha, ua, va)
  let w := o.zscale * ha + o.mean
  let h := w - elev
  (w, ua * h, -va * h)

/-- `a[i][j]`. -/
def at2 (a : List (List K)) (i j : ℕ) : K := (a.getD i []).getD j 0

/-- Smallest number. -/
def least (l : List K) : K := match l with
  | [] => 0
  | x :: xs => xs.foldl min x

/-- `urs2sts`, 25-320: three lists of sources, for height, velocity to the east and velocity to the south. -/
def urs2sts (o : Options K) (ha ua va : List (Src K)) : Except Err (StsFile K) :=
  let weights := o.weights.getD (List.replicate ha.length (1 / (ha.length : K)))
  let perm := o.perm.getD []
  match readPy ha weights perm with
  | .error e => .error e
  | .ok a =>
    match readPy ua weights perm with
    | .error e => .error e
    | .ok b =>
      if ¬ agrees b a then .error .inconsistent
      else
        match readPy va weights perm with
        | .error e => .error e
        | .ok c =>
          if ¬ agrees c b then .error .inconsistent
          else
            let places := (c.lats.zip c.lons).map fun p => o.project p.1 p.2
            let refzone := o.zone.getD ((places.head?.map Prod.fst).getD 0)
            if ¬ places.all (fun p => p.1 == refzone) then .error .zones
            else
              let x := places.map fun p => p.2.1
              let y := places.map fun p => p.2.2
              let origin := o.origin.getD (refzone, least x, least y)
              let stored := c.times.map fun t => t + c.starttime
              let start := stored.headD 0
              let cells := fun j => (List.range places.length).map fun i =>
                cell o (c.elevation.getD i 0) (at2 a.quantity i j) (at2 b.quantity i j) (at2 c.quantity i j)
              let steps := List.range c.times.length
              .ok { starttime := start
                    times := stored.map fun t => t - start
                    zone := origin.1
                    xll := origin.2.1
                    yll := origin.2.2
                    permutation := o.perm.getD (List.range places.length)
                    x := x.map fun e => e - origin.2.1
                    y := y.map fun n => n - origin.2.2
                    elevation := c.elevation
                    stage := steps.map fun j => (cells j).map fun q => q.1
                    xmomentum := steps.map fun j => (cells j).map fun q => q.2.1
                    ymomentum := steps.map fun j => (cells j).map fun q => q.2.2 }

/-- `create_sts_boundary`, `sts.py` 257-293. -/
def stsBoundary (f : StsFile K) : List (K × K) := (f.x.map fun e => e + f.xll).zip (f.y.map fun n => n + f.yll)

end Verif.Mux
