import Verif.Sdf.Model

/-!
# Files of cross sections
-/

namespace Verif.Sdf

variable {K : Type}

/-- One cross section: lines in front of its surface, lines of the surface, and the points in these. -/
structure Section (K : Type) where
  front : List (Line K)
  body : List (Line K)
  points : List (K × K × K)

/-- There is no surface in these lines. -/
def NoSurface (l : List (Line K)) : Prop := Line.surface ∉ l

/-- The lines are the points, in order, with any number of blank lines between. -/
inductive Holds : List (Line K) → List (K × K × K) → Prop where
  | nil : Holds [] []
  | blank {l ps} : Holds l ps → Holds (.blank :: l) ps
  | pt {l ps} (x y z : K) : Holds l ps → Holds (.pt x y z :: l) ((x, y, z) :: ps)

/-- Fit for a file. -/
def Section.Ok (s : Section K) : Prop := NoSurface s.front ∧ Holds s.body s.points

/-- The lines of a section. -/
def Section.lines (s : Section K) : List (Line K) := s.front ++ .surface :: s.body ++ [.fin]

/-- The lines of all sections and what follows. -/
def file (ss : List (Section K)) (rest : List (Line K)) : List (Line K) := (ss.flatMap Section.lines) ++ rest

end Verif.Sdf
