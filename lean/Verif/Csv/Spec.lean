import Verif.Csv.Model

/-! # What tables and files of polygons should hold -/

namespace Verif.Csv

variable {C K : Type} [DecidableEq C]

/-- A table of `n` rows with the given titles, from left to right, and columns. -/
structure Shows (t : Table C) (titles : List C) (cols : List (List C)) (n : ℕ) : Prop where
  distinct : titles.Nodup
  some : titles ≠ []
  each : cols.length = titles.length
  full : ∀ c ∈ cols, c.length = n
  index : t.index = titles.zipIdx
  columns : t.columns = titles.zip cols

/-- A row of a file of polygons: id, easting, northing and value. -/
abbrev Row (C : Type) := C × C × C × C

/-- The point of a row. -/
def point (num : C → Option K) (r : Row C) : Option (K × K) := (num r.2.1).bind fun x => (num r.2.2.1).map fun y => (x, y)

/-- The rows of a polygon are not interrupted by others. -/
def Together (l : List (Row C)) : Prop :=
  ∀ (i j k : ℕ) (a b c : Row C), i < j → j < k → l[i]? = some a → l[j]? = some b → l[k]? = some c → a.1 = c.1 → b.1 = a.1

/-- The rows of a polygon have the same value. -/
def Same (l : List (Row C)) : Prop := ∀ a ∈ l, ∀ b ∈ l, a.1 = b.1 → a.2.2.2 = b.2.2.2

/-- A file of polygons as it should be. -/
def Proper (num : C → Option K) (l : List (Row C)) : Prop := Together l ∧ Same l ∧ ∀ r ∈ l, (point num r).isSome

/-- The points of a polygon in the order of the rows. -/
def outline (num : C → Option K) (l : List (Row C)) (id : C) : List (K × K) := (l.filter fun r => decide (r.1 = id)).filterMap (point num)

end Verif.Csv
