import Verif.Compose.Model

/-! # Vocabulary for composite functions: which source decides at a point, nearest data points, place in a raster -/

set_option linter.unusedSectionVars false

namespace Verif.Compose

open Verif.Polygon

variable {K : Type*} [Field K] [LinearOrder K] [IsStrictOrderedRing K]

/-- The region of a pair holds at a point of the domain: its map position is inside (or on the boundary) by the library's own test. -/
def Holds (sq : K → K) (s : Setup K) (r : Region K) (p : Pt K) : Prop :=
  match r with
  | .skip => False
  | .all => True
  | .polygon poly => isInsidePolygon sq true (s.place p) poly = some true

/-- What a source says at a point: a number, nothing (`nan`). -/
inductive Says (query : Query K) (s : Setup K) (p : Pt K) : Source K → Option K → Prop
  | call (f : Pt K → Option K) : Says query s p (.call f) (f p)
  | const (c : K) : Says query s p (.const c) (some c)
  | points (d : List (Datum K)) : Says query s p (.points d) (some (nearest query d s.k .average huge huge (s.place p)))
  | raster (f : Pt K → Option (Option K)) (v : Option K) (h : f (s.place p) = some v) : Says query s p (.raster f) v

/-- The source raises an exception at the point. -/
inductive Raises (s : Setup K) (p : Pt K) : Source K → Prop
  | raster (f : Pt K → Option (Option K)) (h : f (s.place p) = none) : Raises s p (.raster f)
  | bad : Raises s p .bad

/-- `v` is `u` moved into the range given for pair `i`. -/
def Clipped (s : Setup K) (i : ℕ) (u v : K) : Prop :=
  (s.clip = none ∧ v = u) ∨
  (∃ c lo hi, s.clip = some c ∧ c[i]? = some (lo, hi) ∧ (u ≤ lo → v = lo) ∧ (hi ≤ u → v = hi) ∧ (lo ≤ u → u ≤ hi → v = u))

/-- Pair `i` gets its turn at `p`: its region holds, and all earlier pairs that hold there have no number to offer. -/
def Turn (sq : K → K) (query : Query K) (s : Setup K) (p : Pt K) (i : ℕ) (src : Source K) : Prop :=
  ∃ r, s.pairs[i]? = some (r, src) ∧ Holds sq s r p ∧
    ∀ j < i, ∀ r' src', s.pairs[j]? = some (r', src') → Holds sq s r' p → Says query s p src' none

/-- `v` is the number set at `p` by the first pair that has one. -/
def Served (sq : K → K) (query : Query K) (s : Setup K) (p : Pt K) (v : K) : Prop :=
  ∃ i src u, Turn sq query s p i src ∧ Says query s p src (some u) ∧ Clipped s i u v

/-- The first pair whose region holds at `p` has no number there. -/
def FirstMissing (sq : K → K) (query : Query K) (s : Setup K) (p : Pt K) : Prop :=
  ∃ (i : ℕ) (r : Region K) (src : Source K), s.pairs[i]? = some (r, src) ∧ Holds sq s r p ∧ Says query s p src none ∧
    ∀ j < i, ∀ r' src', s.pairs[j]? = some (r', src') → ¬ Holds sq s r' p

/-- `p` is where gaps are to be filled. -/
def InGaps (sq : K → K) (s : Setup K) (p : Pt K) : Prop :=
  match s.gaps with
  | .no => False
  | .all => True
  | .within ps => ∃ poly ∈ ps, isInsidePolygon sq true (s.place p) poly = some true

/-- The point lacks a value of its own: it is to be filled from others. -/
def Lacking (sq : K → K) (query : Query K) (s : Setup K) (p : Pt K) : Prop := FirstMissing sq query s p ∧ InGaps sq s p

/-- Nothing raises an exception at the point: no source whose turn comes does, nor has one no number unless it may fall through. -/
def Quiet (sq : K → K) (query : Query K) (s : Setup K) (p : Pt K) : Prop :=
  ∀ i src, Turn sq query s p i src → ¬ Raises s p src ∧ (s.treatment ≠ .fallThrough → ¬ Says query s p src none)

/-- After the region 'All' come only pairs without region. -/
def AllLast (pairs : List (Region K × Source K)) : Prop :=
  ∀ (i j : ℕ) (src : Source K) (q : Region K × Source K), i < j → pairs[i]? = some (Region.all, src) → pairs[j]? = some q → q.1 = Region.skip

/-- The ranges are as many as the pairs, and none is reversed. -/
def ClipFits (s : Setup K) : Prop := ∀ c, s.clip = some c → c.length = s.pairs.length ∧ ∀ b ∈ c, b.1 ≤ b.2

/-! ## Nearest neighbours -/

/-- Square of the distance. -/
def dist2 (p q : Pt K) : K := (p.x - q.x) * (p.x - q.x) + (p.y - q.y) * (p.y - q.y)

/-- `near` lists `k` different data points with their distances from `p` in ascending order, and no other is nearer. -/
structure Nearest (d : List (Datum K)) (k : ℕ) (p : Pt K) (near : List (K × ℕ)) : Prop where
  count : near.length = k
  distinct : (near.map Prod.snd).Nodup
  distance : ∀ x ∈ near, ∃ e, d[x.2]? = some e ∧ 0 ≤ x.1 ∧ x.1 * x.1 = dist2 p e.at_
  sorted : near.Pairwise fun x y => x.1 ≤ y.1
  others : ∀ (j : ℕ) (e : Datum K), d[j]? = some e → j ∉ near.map Prod.snd → ∀ x ∈ near, x.1 * x.1 ≤ dist2 p e.at_

/-- The contract of the tree. -/
def Correct (query : Query K) : Prop := ∀ d k p, k ≤ d.length → Nearest d k p (query d k p)

/-- Data point `e` is one of those listed. -/
def Listed (d : List (Datum K)) (near : List (K × ℕ)) (e : Datum K) : Prop := ∃ x ∈ near, d[x.2]? = some e

/-! ## Rasters -/

/-- `p` is in pixel `row`, `col` (columns count from the west, rows from the north; the height of a pixel is negative). -/
def InPixel (g : Grid K) (row col : ℕ) (p : Pt K) : Prop :=
  row < g.nrows ∧ col < g.ncols ∧ g.x0 + col * g.width ≤ p.x ∧ p.x < g.x0 + (col + 1) * g.width ∧
    g.y0 + (row + 1) * g.height < p.y ∧ p.y ≤ g.y0 + row * g.height

/-- Centre of a pixel. -/
def centre (g : Grid K) (row col : ℕ) : Pt K := ⟨g.x0 + (col + 1 / 2) * g.width, g.y0 + (row + 1 / 2) * g.height⟩

/-- The value marks missing data: within one part in 10^8 of the value for it. -/
def Marks (g : Grid K) (v : K) : Prop := ∃ m, g.nodata = some m ∧ |v - m| < 1 / 10 ^ 8 * |m|

end Verif.Compose
