import Verif.Basic

/-!
# Model of tables in text form: columns by title, exposure data, polygons

Sources
* `/repo/anuga/file/csv_file.py` 19-76 (`load_csv_as_dict`), 241-279 (`load_csv_as_building_polygons`), 282-395
  (`load_csv_as_polygons`);
* `/repo/anuga/damage_modelling/exposure.py` 177-192 (`get_column`), 218-246 (`set_column`), 248-275 (`save`).

Simplifications
* a file is the list of its rows as the `csv` module of Python reads and writes them; cells are of any type, `strip` and `float` are parameters;
* a dictionary is a list of pairs in the order of entry.
-/

namespace Verif.Csv

inductive Err where
  /-- `next(reader)` on an empty file -/
  | empty
  /-- a required column is missing -/
  | title
  /-- a row has fewer entries than the first one -/
  | short
  /-- `KeyError`, `IndexError`, `TypeError`, `NameError` -/
  | python
  /-- wrong number of values -/
  | count
  /-- a column with this name is there -/
  | inUse
  /-- assertions about the columns of files of polygons -/
  | columns
  /-- rows of a polygon are apart -/
  | duplicate
  /-- values of a polygon differ -/
  | value
  deriving DecidableEq, Repr

variable {C : Type} [DecidableEq C]

/-- `d[k]`. -/
def get {β : Type} (k : C) : List (C × β) → Option β
  | [] => none
  | (k', v) :: d => if k' = k then some v else get k d

/-- `d[k] = v`. -/
def put {β : Type} (k : C) (v : β) : List (C × β) → List (C × β)
  | [] => [(k, v)]
  | (k', v') :: d => if k' = k then (k', v) :: d else (k', v') :: put k v d

/-- `d.setdefault(k, []).append(v)`. -/
def push {β : Type} (k : C) (v : β) : List (C × List β) → List (C × List β)
  | [] => [(k, [v])]
  | (k', l) :: d => if k' = k then (k', l ++ [v]) :: d else (k', l) :: push k v d

/-- Columns by title, and positions of titles. -/
structure Table (C : Type) where
  columns : List (C × List C)
  index : List (C × ℕ)
  deriving DecidableEq

/-- 73-74: one row. -/
def addRow (titles : List C) (d : List (C × List C)) (row : List C) : List (C × List C) :=
  (titles.zip row).foldl (fun d e => push e.1 e.2 d) d

/-- 67-74: all rows. -/
def addRows (titles : List C) : List (C × List C) → List (List C) → Except Err (List (C × List C))
  | d, [] => .ok d
  | d, r :: rs => if r.length < titles.length then .error .short else addRows titles (addRow titles d r) rs

/-- `load_csv_as_dict`, 19-76. -/
def load (strip : C → C) (check : List C) (rows : List (List C)) : Except Err (Table C) :=
  match rows with
  | [] => .error .empty
  | head :: lines =>
    let titles := head.map strip
    let index := titles.zipIdx.foldl (fun d e => put e.1 e.2 d) []
    if check.all fun t => (get t index).isSome then
      match addRows titles [] lines with
      | .error e => .error e
      | .ok d => .ok ⟨d, index⟩
    else .error .title

/-- `get_column`, `exposure.py` 177-192. -/
def column (t : Table C) (name : C) : Except Err (List C) :=
  match get name t.columns with
  | none => .error .title
  | some c => .ok c

/-- Number of rows, 231-232: entries of the first column. -/
def rowCount (t : Table C) : Except Err ℕ :=
  match t.index with
  | [] => .error .python
  | (k, _) :: _ =>
    match get k t.columns with
    | none => .error .python
    | some c => .ok c.length

/-- `set_column`, 218-246. -/
def setColumn (t : Table C) (name : C) (vals : List C) (overwrite : Bool) : Except Err (Table C) :=
  match rowCount t with
  | .error e => .error e
  | .ok n =>
    if vals.length ≠ n then .error .count
    else if (get name t.columns).isSome then
      if !overwrite then .error .inUse else .ok { t with columns := put name vals t.columns }
    else .ok ⟨put name vals t.columns, put name t.index.length t.index⟩

/-- 261-262 and 271-274: entries are put at their positions one after the other; a position beyond the end is an exception. -/
def placeIn : List (Option C) → List (ℕ × C) → Except Err (List (Option C))
  | row, [] => .ok row
  | row, (i, v) :: l => if i < row.length then placeIn (row.set i (some v)) l else .error .python

/-- 260-262 and 270-274. -/
def place (n : ℕ) (l : List (ℕ × C)) : Except Err (List (Option C)) := placeIn (List.replicate n none) l

/-- 271-274: the entries of a row. -/
def cells (columns : List (C × List C)) (i : ℕ) : List (C × ℕ) → Except Err (List (ℕ × C))
  | [] => .ok []
  | (k, j) :: l =>
    match (get k columns).bind fun c => c[i]? with
    | none => .error .python
    | some v =>
      match cells columns i l with
      | .error e => .error e
      | .ok r => .ok ((j, v) :: r)

/-- 269-275: rows from `i` on, `n` of them. -/
def saveRows (t : Table C) : ℕ → ℕ → Except Err (List (List (Option C)))
  | _, 0 => .ok []
  | i, n + 1 =>
    match cells t.columns i t.index with
    | .error e => .error e
    | .ok cs =>
      match place t.index.length cs with
      | .error e => .error e
      | .ok row =>
        match saveRows t (i + 1) n with
        | .error e => .error e
        | .ok rs => .ok (row :: rs)

/-- `save`, 248-275: the rows written (`none` is an empty cell). -/
def save (t : Table C) : Except Err (List (List (Option C))) :=
  match place t.index.length (t.index.map fun e => (e.2, e.1)) with
  | .error e => .error e
  | .ok head =>
    match rowCount t with
    | .error e => .error e
    | .ok n =>
      match saveRows t 0 n with
      | .error e => .error e
      | .ok rs => .ok (head :: rs)

/-! ## Polygons -/

variable {K : Type}

/-- State of the loop 351-389. -/
structure Poly (C K : Type) where
  polygons : List (C × List (K × K))
  values : List (C × C)
  past : List C
  last : Option C
  excluded : List C

/-- 351-389: one row: `clip` is the number of clipping polygons, if they are given. `inside_polygon` is not known in this file, so that asking for
it is an exception. -/
def polyRow (num : C → Option K) (clip : Option ℕ) (s : Poly C K) (id e n v : C) : Except Err (Poly C K) :=
  if id ∈ s.past then .error .duplicate
  else
    let fresh := (get id s.polygons).isNone
    let values := if fresh then put id v s.values else s.values
    let past := if fresh then (match s.last with
      | some l => l :: s.past
      | none => s.past) else s.past
    match num e, num n with
    | some x, some y =>
      match clip with
      | some (_ + 1) => .error .python
      | _ =>
        if get id values = some v then
          .ok ⟨push id (x, y) s.polygons, values, past, some id, if clip = none then s.excluded else id :: s.excluded⟩
        else .error .value
    | _, _ => .error .python

/-- The loop. -/
def polyRows (num : C → Option K) (clip : Option ℕ) : Poly C K → List (C × C × C × C) → Except Err (Poly C K)
  | s, [] => .ok s
  | s, (id, e, n, v) :: l =>
    match polyRow num clip s id e n v with
    | .error e => .error e
    | .ok s => polyRows num clip s l

/-- Titles of the columns. -/
structure Names (C : Type) where
  easting : C
  northing : C
  id : C

/-- `load_csv_as_polygons`, 282-395. Without a column of values, `X[None]` or `values[poly_id]` are exceptions. -/
def loadPolygons (strip : C → C) (num : C → Option K) (nm : Names C) (valueName : Option C) (clip : Option ℕ) (rows : List (List C)) :
    Except Err (List (C × List (K × K)) × List (C × C)) :=
  match load strip [] rows with
  | .error e => .error e
  | .ok t =>
    if t.columns.length ≠ 3 ∧ t.columns.length ≠ 4 then .error .columns
    else
      match get nm.easting t.columns, get nm.northing t.columns, get nm.id t.columns with
      | some es, some ns, some ids =>
        match valueName with
        | none => .error .python
        | some v =>
          match get v t.columns with
          | none => .error .columns
          | some vs =>
            if t.columns.length = 3 then .error .python
            else if es.length < ids.length ∨ ns.length < ids.length ∨ vs.length < ids.length then .error .python
            else
              match polyRows num clip ⟨[], [], [], none, []⟩ (ids.zip (es.zip (ns.zip vs))) with
              | .error e => .error e
              | .ok s => .ok (s.polygons.filter fun p => !decide (p.1 ∈ s.excluded), s.values)
      | _, _, _ => .error .columns

/-- `load_csv_as_building_polygons`, 241-279. -/
def heights [Mul K] (num : C → Option K) (floor : K) : List (C × C) → Except Err (List (C × K))
  | [] => .ok []
  | (k, v) :: l =>
    match num v with
    | none => .error .python
    | some x =>
      match heights num floor l with
      | .error e => .error e
      | .ok r => .ok ((k, x * floor) :: r)

end Verif.Csv
