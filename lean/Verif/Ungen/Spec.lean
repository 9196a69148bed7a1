import Verif.Ungen.Model

/-!
# What a file of polygons holds
-/

namespace Verif.Ungen

variable {K : Type} [DecidableEq K]

/-- Corners of a polygon, without the last point if this is the first one again. -/
def corners (v : List (K × K)) : List (K × K) := if v.head? = v.getLast? then v.dropLast else v

/-- Sides of a polygon with `n` corners of which the first one has number `k`: from every corner to the next one, and from the last to the first. -/
def sides (k n : ℕ) : List (ℕ × ℕ) := (List.range n).map fun i => (k + i, k + (i + 1) % n)

/-- Sides of polygons, whose corners are numbered one after the other. -/
def allSides : ℕ → List (List (K × K)) → List (ℕ × ℕ)
  | _, [] => []
  | k, v :: vs => sides k v.length ++ allSides (k + v.length) vs

/-- Lines of one polygon. -/
def ringLines (v : List (K × K)) : List (Line K) := v.map (fun p => .pt p.1 p.2) ++ [.fin]

/-- Lines of a file: a line which is not used and points for each polygon, and `END` behind all. -/
def file (rs : List (Line K × List (K × K))) (rest : List (Line K)) : List (Line K) :=
  (rs.flatMap fun r => r.1 :: ringLines r.2) ++ .fin :: rest

end Verif.Ungen
