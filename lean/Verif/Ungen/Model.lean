import Verif.Basic

/-!
# Model of reading files of polygons in the ungenerate format

Sources
* `/repo/anuga/file/ungenerate.py` 3-93 (`load_ungenerate`, `readUngenerateFile`).

Simplifications
* a line is given by what the code looks at: that it begins with `END`, or its first two words as numbers; exact numbers.
-/

namespace Verif.Ungen

variable {K : Type} [DecidableEq K]

/-- A line of the file. -/
inductive Line (K : Type) where
  /-- begins with `END` -/
  | fin
  /-- its first two words are numbers -/
  | pt (x y : K)
  /-- anything else -/
  | other
  deriving DecidableEq

/-- What is returned. -/
structure Out (K : Type) where
  points : List (K × K)
  segments : List (ℕ × ℕ)
  polygons : List (List (K × K))
  deriving DecidableEq

/-- 51-62: points up to the next `END`; `prev` is the number of the point before. -/
def ring : List (K × K) → List (ℕ × ℕ) → List (K × K) → ℕ → List (Line K) →
    Option (List (K × K) × List (ℕ × ℕ) × List (K × K) × List (Line K))
  | _, _, _, _, [] => none
  | ps, ss, poly, _, .fin :: l => some (ps, ss, poly, l)
  | ps, ss, poly, prev, .pt x y :: l => ring (ps ++ [(x, y)]) (ss ++ [(prev, ps.length)]) (poly ++ [(x, y)]) ps.length l
  | _, _, _, _, .other :: _ => none

/-- 63-77: a last point which is the first one is taken away with the last segment of all; then the ring is closed. -/
def close (first : ℕ) (ps : List (K × K)) (ss : List (ℕ × ℕ)) (poly : List (K × K)) : Option (List (K × K) × List (ℕ × ℕ) × List (K × K)) :=
  if ps[first]? = ps[ps.length - 1]? then
    match ss with
    | [] => none
    | _ :: _ => some (ps.dropLast, ss.dropLast ++ [(ps.length - 2, first)], poly.dropLast)
  else some (ps, ss ++ [(ps.length - 1, first)], poly)

/-- 40-84: the outer loop, beginning after the line which is not used; `n` bounds the number of rings. -/
def rings : ℕ → Out K → List (Line K) → Option (Out K)
  | n + 1, o, .pt x y :: l =>
    match ring (o.points ++ [(x, y)]) o.segments [(x, y)] o.points.length l with
    | none => none
    | some (ps, ss, poly, l') =>
      match close o.points.length ps ss poly with
      | none => none
      | some (ps, ss, poly) =>
        match l' with
        | [] => none
        | .fin :: _ => some ⟨ps, ss, o.polygons ++ [poly]⟩
        | _ :: l'' => rings n ⟨ps, ss, o.polygons ++ [poly]⟩ l''
  | _, _, _ => none

/-- `readUngenerateFile`, 22-93; `none` is an exception. -/
def read (lines : List (Line K)) : Option (Out K) := rings lines.length ⟨[], [], []⟩ lines.tail

end Verif.Ungen
