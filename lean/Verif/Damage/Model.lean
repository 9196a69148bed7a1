import Verif.Basic
import Mathlib.Algebra.Order.Floor.Defs
import Mathlib.Algebra.Order.Floor.Ring

/-!
# Model of damage done to structures by inundation

Sources: `/repo/anuga/damage_modelling/inundation_damage.py` 51-110 (`inundation_damage`), 134-198 (`calc_max_depth_and_momentum`), 200-460
(`EventDamageModel`).

Simplifications
* exact field in place of floats; `sqrt` is a parameter;
* a file is given by what `file_function` returns at each point and time (`none` stands for `NAN`); columns of the exposure file are given as
  one list of structures, so that they have the same length (asserted at 316-320);
* the last limits of depth and distance, the greatest float, are no limits;
* `choice` takes the entry whose position is the next of some numbers, modulo the length;
* the houses of one probability are all chosen before they are marked (451-456); the order of marking makes no difference.
-/

namespace Verif.Damage

/-! ## Files and greatest depths -/

/-- Whether `b` is in `x`: `base in x`. -/
def isIn (b : List Char) : List Char → Bool
  | [] => b.isEmpty
  | c :: x => b.isPrefixOf (c :: x) || isIn b x

/-- `x[-4:]`. -/
def lastFour (x : List Char) : List Char := x.drop (x.length - 4)

/-- 157-167: the files of the directory which are read. -/
def chosen (base : List Char) (dir : List (List Char)) : Option (List (List Char)) :=
  let base := if lastFour base = ".sww".toList then base.take (base.length - 4) else base
  let l := dir.filter fun x => isIn base x && decide (lastFour x = ".sww".toList)
  if l.length = 0 then none else some l

variable {K : Type} [Field K] [LinearOrder K]

/-- Stage, elevation and momenta at a point and a time. -/
structure Val (K : Type) where
  w : Option K
  z : Option K
  uh : Option K
  vh : Option K

/-- 179-196: one time at one point. -/
def observe (sqrt : K → K) (ground : K) (a : K × K) (v : Val K) : K × K :=
  match v.w, v.z, v.uh, v.vh with
  | some w, some z, some uh, some vh =>
    let depth := w - z - ground
    let momentum := sqrt (uh * uh + vh * vh)
    (if depth > a.1 then depth else a.1, if momentum > a.2 then momentum else a.2)
  | _, _, _, _ => a

/-- `calc_max_depth_and_momentum`, 134-198: for each file and each point the values at all times. -/
def calcMax (sqrt : K → K) (ground : K) (points : ℕ) (files : List (List (List (Val K)))) : List (K × K) :=
  files.foldl (fun st file => List.zipWith (fun a ts => ts.foldl (observe sqrt ground) a) st file) (List.replicate points (-ground, -ground))

/-! ## Damage curves -/

/-- 215-227. -/
def doubleBrick : List (K × K) :=
  [(-1000, 0), (-(1 / 10 ^ 12), 0), (0, 16 / 1000), (1 / 10, 150 / 1000), (3 / 10, 425 / 1000), (5 / 10, 449 / 1000), (1, 572 / 1000),
    (15 / 10, 582 / 1000), (2, 587 / 1000), (25 / 10, 647 / 1000), (1000, 647 / 10)]

/-- 237-249. -/
def brickVeneer : List (K × K) :=
  [(-1000, 0), (-(1 / 10 ^ 12), 0), (0, 16 / 1000), (1 / 10, 169 / 1000), (3 / 10, 445 / 1000), (5 / 10, 472 / 1000), (1, 618 / 1000),
    (15 / 10, 629 / 1000), (2, 633 / 1000), (25 / 10, 694 / 1000), (1000, 694 / 10)]

/-- 265-276. -/
def contentsCurve : List (K × K) :=
  [(-1000, 0), (-(1 / 10 ^ 12), 0), (0, 13 / 1000), (1 / 10, 102 / 1000), (3 / 10, 381 / 1000), (5 / 10, 500 / 1000), (1, 970 / 1000),
    (15 / 10, 976 / 1000), (2, 986 / 1000), (1000, 986 / 10)]

/-- 261-263 with `get` of 368-369. -/
def structCurve (wall : String) : List (K × K) :=
  if wall = "Double Brick" then doubleBrick else brickVeneer

/-- `interp1d`: linear between the points, nothing beyond the last. -/
def interpFrom : K × K → List (K × K) → K → Option K
  | _, [], _ => none
  | p, q :: l, x => if x ≤ q.1 then some (p.2 + (q.2 - p.2) / (q.1 - p.1) * (x - p.1)) else interpFrom q l x

/-- `interp1d`: an exception outside. -/
def interp (l : List (K × K)) (x : K) : Option K :=
  match l with
  | [] => none
  | p :: l => if x < p.1 then none else interpFrom p l x

/-! ## Damage -/

/-- A structure. -/
structure House (K : Type) where
  depth : K
  shore : K
  wall : String
  cost : K
  contents : K

/-- 361-371: damage of structure and contents by depth, and whether it counts as inundated. -/
def damage (h : House K) : Option (K × K × Bool) :=
  if 0 > h.depth then some (0, 0, false)
  else
    match interp (structCurve h.wall) h.depth, interp contentsCurve h.depth with
    | some s, some c => some (s, c, true)
    | _, _ => none

/-- 291-292. -/
def depthLimits : List (Option K) := [some (1 / 10 ^ 12), some 1, some 2, some 3, some 5, none]

/-- 294. -/
def shoreLimits : List (Option K) := [some 125, some 200, some 250, none]

/-- 296-301. -/
def table : List (List K) :=
  [[0, 0, 0, 0], [5 / 100, 2 / 100, 1 / 100, 0], [6 / 10, 3 / 10, 1 / 10, 5 / 100], [8 / 10, 4 / 10, 25 / 100, 15 / 100],
    [95 / 100, 7 / 10, 5 / 10, 3 / 10], [99 / 100, 9 / 10, 65 / 100, 45 / 100]]

/-- First limit which is not exceeded. -/
def bin (limits : List (Option K)) (x : K) : Option ℕ := limits.findIdx? fun l => match l with
  | none => true
  | some a => decide (x ≤ a)

/-- 409-427: probability of collapse, if the structure is entered in the dictionary. -/
def probability (h : House K) : Option K :=
  match (depthLimits (K := K)).head? with
  | some (some d) =>
    if h.depth ≤ d then none
    else
      match bin depthLimits.tail h.depth with
      | none => none
      | some i =>
        match bin shoreLimits h.shore with
        | none => none
        | some j =>
          let p := (table.getD (i + 1) []).getD j 0
          if p = 0 then none else some p
  | _ => none

/-- `struct_coll_prob.setdefault(coll_prob, []).append(i)`, 425. -/
def enter (p : K) (i : ℕ) : List (K × List ℕ) → List (K × List ℕ)
  | [] => [(p, [i])]
  | (q, l) :: d => if q = p then (q, l ++ [i]) :: d else (q, l) :: enter p i d

/-- `calc_collapse_probability`, 387-429. -/
def classes (hs : List (House K)) : List (K × List ℕ) :=
  (hs.zipIdx).foldl (fun d h => match probability h.1 with
    | none => d
    | some p => enter p h.2 d) []

/-- `choice` and `remove`, `n` times (451-455): the houses chosen. `rnd` are the numbers left. -/
def draw (rnd : ℕ → ℕ) : ℕ → List ℕ → Option (List ℕ)
  | 0, _ => some []
  | n + 1, l =>
    match l[rnd 0 % l.length]? with
    | none => none
    | some i => (draw (fun k => rnd (k + 1)) n (l.erase i)).map (i :: ·)

variable [FloorRing K]

/-- `round`: to the nearest whole number, to the even one of two. -/
def roundEven (x : K) : ℤ :=
  if x - ⌊x⌋ < 1 / 2 then ⌊x⌋
  else if 1 / 2 < x - ⌊x⌋ then ⌊x⌋ + 1
  else if ⌊x⌋ % 2 = 0 then ⌊x⌋ else ⌊x⌋ + 1

/-- `_calc_collapse_structures`, 431-456: the houses which collapse; for each house probability, number of houses which collapse and number
of houses (445-450). -/
def collapse (rnd : ℕ → ℕ) : List (K × List ℕ) → Option (List ℕ × List (ℕ × K × ℤ × ℕ))
  | [] => some ([], [])
  | (p, l) :: d =>
    let n := roundEven ((l.length : K) * p)
    match draw rnd n.toNat l with
    | none => none
    | some is =>
      (collapse (fun k => rnd (k + n.toNat)) d).map fun r => (is ++ r.1, l.map (fun i => (i, p, n, l.length)) ++ r.2)

/-- Columns which are added to the file. -/
structure Result (K : Type) where
  structDamage : List K
  contentsDamage : List K
  structLoss : List K
  contentsLoss : List K
  collapsed : List Bool
  inundated : List Bool
  info : List (Option (K × ℤ × ℕ))

/-- `calc_damage_and_costs`, 323-343, with `calc_cost`, 377-385. -/
def assess (rnd : ℕ → ℕ) (hs : List (House K)) : Option (Result K) :=
  match hs.mapM damage, collapse rnd (classes hs) with
  | some ds, some (is, info) =>
    let sd := ds.zipIdx.map fun d => if d.2 ∈ is then 1 else d.1.1
    let cd := ds.zipIdx.map fun d => if d.2 ∈ is then 1 else d.1.2.1
    some { structDamage := sd
           contentsDamage := cd
           structLoss := List.zipWith (fun d (h : House K) => d * h.cost) sd hs
           contentsLoss := List.zipWith (fun d (h : House K) => d * h.contents) cd hs
           collapsed := (List.range hs.length).map fun i => decide (i ∈ is)
           inundated := ds.map fun d => d.2.2
           info := (List.range hs.length).map fun i => (info.find? fun e => e.1 == i).map (·.2) }
  | _, _ => none

end Verif.Damage
