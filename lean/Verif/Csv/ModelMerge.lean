import Verif.Csv.Model

/-!
# Model of putting columns of several tables side by side

Sources
* `/repo/anuga/utilities/csv_tools.py` 8-50 (`read_csv_file`), 53-128 (`merge_csv_key_values`).

Simplifications
* as in `Verif.Csv.Model`: rows are those of the `csv` module, `strip` is a parameter.
-/

namespace Verif.Csv

variable {C : Type} [DecidableEq C]

/-- `header.index(name)`, 35-36. -/
def position (name : C) : List C → Option ℕ
  | [] => none
  | c :: l => if c = name then some 0 else (position name l).map (· + 1)

/-- 40-46: rows that are too short are left out. -/
def pairs (strip : C → C) (k d : ℕ) : List (List C) → List (C × C)
  | [] => []
  | r :: rs =>
    match r[k]?, r[d]? with
    | some a, some b => (strip a, strip b) :: pairs strip k d rs
    | _, _ => pairs strip k d rs

/-- `read_csv_file`, 8-50. -/
def readPairs (strip : C → C) (key data : C) (rows : List (List C)) : Except Err (List (C × C)) :=
  match rows with
  | [] => .error .empty
  | head :: lines =>
    match position key (head.map strip), position data (head.map strip) with
    | some k, some d => .ok (pairs strip k d lines)
    | _, _ => .error .title

/-- All files, 82-86. -/
def readFiles (strip : C → C) (key data : C) : List (List (List C) × C) → Except Err (List (C × List (C × C)))
  | [] => .ok []
  | (rows, title) :: fs =>
    match readPairs strip key data rows with
    | .error e => .error e
    | .ok d =>
      match readFiles strip key data fs with
      | .error e => .error e
      | .ok r => .ok ((title, d) :: r)

/-- `merge_csv_key_values`, 53-128: the rows written; files are given with new titles. -/
def merge (strip : C → C) (key data : C) (files : List (List (List C) × C)) : Except Err (List (List C)) :=
  match files with
  | [] => .error .empty
  | _ :: _ =>
    match readFiles strip key data files with
    | .error e => .error e
    | .ok [] => .error .empty
    | .ok ((t, d) :: fs) =>
      if (fs.all fun f => f.2.length == d.length) = false then .error .count
      else if (fs.all fun f => decide (f.2.map Prod.fst = d.map Prod.fst)) = false then .error .value
      else .ok ((key :: t :: fs.map Prod.fst) :: d.zipIdx.map fun p =>
        p.1.1 :: p.1.2 :: fs.filterMap fun f => (f.2[p.2]?).map Prod.snd)

end Verif.Csv
