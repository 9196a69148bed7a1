import Verif.Basic

/-!
# Model of reading cross sections of rivers

Sources
* `/repo/anuga/file_conversion/sdf2pts.py` 4-34 (`_read_hecras_cross_sections`), 36-183 (`sdf2pts`).

Simplifications
* a line is given by what the code looks at: that it is blank, begins with `SURFACE LINE` or `END`, or has three numbers in front;
* the header is given by the number of cross sections in it (159); projection, zone and units are left out, as is the writing of the points.
-/

namespace Verif.Sdf

variable {K : Type}

/-- A line after the header. -/
inductive Line (K : Type) where
  | blank
  /-- begins with `SURFACE LINE` -/
  | surface
  /-- begins with `END` -/
  | fin
  /-- its first three fields are numbers -/
  | pt (x y z : K)
  /-- anything else -/
  | other
  deriving DecidableEq

/-- `_read_hecras_cross_sections`, 4-34: `reading_surface`, `points` and the lines left; `none` is an exception. -/
def sections : Bool → List (K × K × K) → List (Line K) → Option (List (List (K × K × K)))
  | _, _, [] => some []
  | r, ps, .blank :: l => sections r ps l
  | _, ps, .surface :: l => sections true ps l
  | true, ps, .fin :: l => (sections false [] l).map (ps :: ·)
  | true, ps, .pt x y z :: l => sections true (ps ++ [(x, y, z)]) l
  | true, _, .other :: _ => none
  | false, ps, .fin :: l => sections false ps l
  | false, ps, .pt _ _ _ :: l => sections false ps l
  | false, ps, .other :: l => sections false ps l

/-- `sdf2pts`, 162-183: points with elevations handed on to be written; without any section `j` in line 172 is not defined. -/
def convert (reported : ℕ) (lines : List (Line K)) : Option (List (K × K × K)) :=
  match sections false [] lines with
  | none => none
  | some [] => none
  | some (s :: ss) => if (s :: ss).length = reported then some (s :: ss).flatten else none

end Verif.Sdf
