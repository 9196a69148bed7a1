import Verif.Basic

/-!
# Model of two programs of the library: greatest values of rasters and the order of points along a boundary

Sources
* `/repo/anuga/lib/maxasc.py` 25-95 (`MaxAsc`);
* `/repo/anuga/lib/order_boundary.py` 34-109 (`order_boundary`).

Simplifications
* exact numbers; lines of text are of any type, and which of them are empty and which numbers they hold are parameters; the numbers written are
  not rounded (`MaxAsc` writes five digits);
* rows of points have two numbers in front; the limit on the depth of recursion is a parameter.
-/

namespace Verif.Lib

/-! ## Greatest values -/

variable {S K R : Type} [DecidableEq S] [Field K] [LinearOrder K]

/-- How lines of data are read. -/
structure Text (S K : Type) where
  /-- not more than one character, 67 -/
  blank : S → Bool
  /-- the words as numbers, 68-80 -/
  nums : S → Option (List K)

/-- 84-87: greatest number at one position. -/
def maxAt (i : ℕ) (first : List K) (rows : List (List K)) : K :=
  rows.foldl (fun m d => if m < d.getD i 0 then d.getD i 0 else m) (first.getD i 0)

/-- 61-89: one line of data. -/
def maxLine (T : Text S K) (lines : List S) : Option (List K) :=
  match (lines.filter fun l => !T.blank l).mapM T.nums with
  | none => none
  | some [] => none
  | some (r :: rs) =>
    if (rs.all fun d => d.length == r.length) then some ((List.range r.length).map fun i => maxAt i r (r :: rs)) else none

/-- 49-57: one line of the header. -/
def headLine (files : List (List S)) (i : ℕ) : Option S :=
  match files with
  | [] => none
  | f :: _ =>
    match f[i]? with
    | none => none
    | some l => if files.all fun g => decide (g[i]? = some l) then some l else none

/-- `MaxAsc`, 25-95: header and numbers written; `none` is an exception. -/
def maxAsc (T : Text S K) (files : List (List S)) : Option (List S × List (List K)) :=
  match files with
  | [] => none
  | f :: _ =>
    if files.all fun g => g.length == f.length then
      match (List.range 6).mapM (headLine files) with
      | none => none
      | some head =>
        match (List.range (f.length - 6)).mapM fun k => maxLine T (files.filterMap fun g => g[6 + k]?) with
        | none => none
        | some rows => some (head, rows)
    else none

/-! ## Order of points -/

/-- Square of the distance, 67. -/
def dist2 (p q : K × K) : K := (q.1 - p.1) * (q.1 - p.1) + (q.2 - p.2) * (q.2 - p.2)

/-- 62-70: the loop; `i` is the number of the next row, `best` the nearest one up to now. -/
def nearestFrom (pos : R → K × K) (p : K × K) : ℕ → Option (ℕ × K) → List R → Option ℕ
  | _, best, [] => best.map Prod.fst
  | i, best, r :: l =>
    let d := dist2 p (pos r)
    nearestFrom pos p (i + 1) (match best with
      | none => some (i, d)
      | some b => if d < b.2 then some (i, d) else some b) l

/-- `sort_points`, 43-76; `depth` is the number of calls that are allowed. -/
def sortPoints (pos : R → K × K) : ℕ → List R → ℕ → Option (List R)
  | 0, _, _ => none
  | depth + 1, l, id =>
    match l[id]? with
    | none => none
    | some p =>
      match nearestFrom pos (pos p) 0 none (l.eraseIdx id) with
      | none => some [p]
      | some i => (sortPoints pos depth (l.eraseIdx id) i).map (p :: ·)

/-- `order_boundary`, 34-109: the rows written after the header, for the rows after the header. -/
def orderBoundary (pos : R → K × K) (depth : ℕ) (data : List R) : Option (List R) := sortPoints pos depth data 0

end Verif.Lib
