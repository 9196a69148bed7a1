import Verif.Proj.Props

/-! C104: zones and meridians asked for; the ellipsoid. -/

namespace Verif.Proj

/-- C104: a zone asked for is used, with the meridian in the middle of its six degrees, wherever the point lies. -/
theorem C104_zone_given (lat lon : ℝ) (z : ℤ) (fe fn sc : Option ℝ) :
    ∃ cm e n, origin lon { falseEasting := fe, falseNorthing := fn, zone := some z, scale := sc } = some (z, cm) ∧
      redfearn lat lon { falseEasting := fe, falseNorthing := fn, zone := some z, scale := sc } = some (z, e, n) ∧
      cm - 3 = 6 * (z : ℝ) - 186 ∧ cm + 3 = 6 * (z : ℝ) - 180 :=
  ⟨(z : ℝ) * 6 + (-183), _, _, rfl, rfl, by ring, by ring⟩

/-- C104: in the zone in which a point lies, asking for this zone changes nothing. -/
theorem C104_zone_same (lat lon : ℝ) (h1 : -180 ≤ lon) (h2 : lon < 180) (fe fn sc : Option ℝ) :
    ∃ z, zoneOf lon = some z ∧ redfearn lat lon { falseEasting := fe, falseNorthing := fn, zone := some z, scale := sc } =
      redfearn lat lon { falseEasting := fe, falseNorthing := fn, scale := sc } := by
  obtain ⟨z, hz, -⟩ := C104_zone lon h1 h2
  refine ⟨z, hz, ?_⟩
  unfold redfearn origin
  simp only [hz, Option.map_some]

/-- C104: a central meridian asked for is used, and the zone is given as -1, for none; both a zone and a meridian are refused. -/
theorem C104_meridian_given (lat lon c : ℝ) (fe fn sc : Option ℝ) :
    (-180 ≤ lon → lon < 180 → origin lon { falseEasting := fe, falseNorthing := fn, meridian := some c, scale := sc } = some (-1, c) ∧
      ∃ e n, redfearn lat lon { falseEasting := fe, falseNorthing := fn, meridian := some c, scale := sc } = some (-1, e, n)) ∧
    ∀ z, redfearn lat lon { falseEasting := fe, falseNorthing := fn, zone := some z, meridian := some c, scale := sc } = none := by
  refine ⟨fun h1 h2 => ?_, fun z => rfl⟩
  obtain ⟨z, hz, -⟩ := C104_zone lon h1 h2
  have ho : origin lon { falseEasting := fe, falseNorthing := fn, meridian := some c, scale := sc } = some (-1, c) := by
    unfold origin
    simp only [hz, Option.map_some]
  refine ⟨ho, ?_⟩
  rw [redfearn_eq lat lon _ _ _ ho]
  exact ⟨_, _, rfl⟩

/-- C104: the ellipsoid is that of GRS80: half axes 6378137 m and 6356752.31414 m. -/
theorem C104_ellipsoid : semiMajor = 6378137 ∧ ∃ b : ℝ, 0 < b ∧ e2 = 1 - (b / semiMajor) ^ 2 ∧ |b - 6356752.31414| < 0.00001 := by
  refine ⟨rfl, 6378137 * (1 - 1 / 298.257222101), by norm_num, ?_, ?_⟩
  · unfold e2 flat invFlat semiMajor; norm_num
  · rw [abs_lt]; constructor <;> norm_num

/-- `C104_zone_given`, `C104_zone_same`, `C104_meridian_given`: a point of zone 55, in its own zone, that beside it and about its own meridian. -/
example := C104_zone_given (-42) 149.9 56 none none none
example := C104_zone_same (-42) 147 (by norm_num) (by norm_num) none none none
example := (C104_meridian_given (-42) 147 148 none none none).1 (by norm_num) (by norm_num)

end Verif.Proj
