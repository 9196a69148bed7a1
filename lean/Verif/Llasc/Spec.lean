import Verif.Llasc.Model

/-!
# Rasters and the places of their values
-/

namespace Verif.Llasc

variable {K : Type} [Field K] [LinearOrder K]

/-- The file has the rows and columns which its header says. -/
def Raster.Ok (r : Raster K) : Prop :=
  0 < r.ncols ∧ r.xkey ≠ .other ∧ r.ykey ≠ .other ∧ r.lines.length = r.nrows ∧ ∀ l ∈ r.lines, l.length = r.ncols

/-- The raster has the value `v`, which is not missing, in row `i` from the top and column `j` from the left. -/
def Raster.Has (r : Raster K) (i j : ℕ) (v : K) : Prop := (∃ l, r.lines[i]? = some l ∧ l[j]? = some v) ∧ v ≠ r.nodata

/-- Latitude of row `i`: the lowest row has that of the header. -/
def Raster.lat (r : Raster K) (i : ℕ) : K := r.yll + ((r.nrows - 1 - i : ℕ) : K) * r.cell

/-- Longitude of column `j`. -/
def Raster.long (r : Raster K) (j : ℕ) : K := r.xll + (j : K) * r.cell

/-- The file written has elevation `z` at the position (x, y). -/
def Out.At (o : Out K) (x y z : K) : Prop := ∃ p, (p, z) ∈ o.points.zip o.elevation ∧ x = p.1 + o.corner.1 ∧ y = p.2 + o.corner.2

end Verif.Llasc
