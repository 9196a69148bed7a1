import Verif.Cut.Props
import Mathlib.Tactic.NormNum

/-! # Samples -/

namespace Verif.Cut

def smLats : List ℚ := [-36, -35, -34, -33]

def smLons : List ℚ := [148, 149, 150, 151]

theorem smLats_up : smLats.Pairwise (· < ·) := by decide +kernel

theorem smLons_up : smLons.Pairwise (· < ·) := by decide +kernel

example := C114_ascending smLats smLons smLats_up smLons_up (some (-71 / 2)) (some (-69 / 2)) (some 149) (some 150)

example : indices smLats smLons (some (-71 / 2)) (some (-69 / 2)) (some 149) (some 150) = some (0, 3, 0, 3) := by decide +kernel

example := C114_descending smLats.reverse smLons (by decide +kernel) smLons_up (some (-71 / 2)) none none (some 150) (-33) (-36) rfl rfl
  (by norm_num [abs_of_neg])

example : indices smLats.reverse smLons (some (-71 / 2)) none none (some 150) = some (0, 4, 0, 3) := by decide +kernel

example := C114_some smLats smLons smLats_up smLons_up (by decide) (by decide) (some 10) (some 20) none none
  (by intro a b ha hb; cases ha; cases hb; norm_num) (by intro a b ha; cases ha)

/-- **C114.** The slices are not always as small as can be: if the lower bound is a line of the grid, the line below is kept as well, which is not so at
the upper bound. -/
theorem C114_extra : indices smLats smLons (some (-35)) (some (-34)) (some 149) (some 150) = some (0, 3, 0, 3) ∧ Covers smLats 1 3 (some (-35)) (some (-34)) := by
  refine ⟨by decide +kernel, ?_⟩
  have get : ∀ (i : ℕ) v, smLats[i]? = some v → (i = 0 ∧ v = -36) ∨ (i = 1 ∧ v = -35) ∨ (i = 2 ∧ v = -34) ∨ (i = 3 ∧ v = -33) := by
    intro i v h
    match i with
    | 0 => left; cases h; exact ⟨rfl, rfl⟩
    | 1 => right; left; cases h; exact ⟨rfl, rfl⟩
    | 2 => right; right; left; cases h; exact ⟨rfl, rfl⟩
    | 3 => right; right; right; cases h; exact ⟨rfl, rfl⟩
    | n + 4 => simp [smLats] at h
  refine ⟨?_, ?_, ?_, ?_, ?_⟩
  · intro i v h h1 h2
    have h1 := h1 _ rfl
    have h2 := h2 _ rfl
    rcases get i v h with ⟨rfl, rfl⟩ | ⟨rfl, rfl⟩ | ⟨rfl, rfl⟩ | ⟨rfl, rfl⟩
    · norm_num at h1
    · exact ⟨by decide, by decide, by decide⟩
    · exact ⟨by decide, by decide, by decide⟩
    · norm_num at h2
  · rintro m hm - -
    cases hm
    exact ⟨1, -35, ⟨by decide, by decide, by decide⟩, rfl, le_rfl⟩
  · rintro m hm - -
    cases hm
    exact ⟨2, -34, ⟨by decide, by decide, by decide⟩, rfl, le_rfl⟩
  · rintro m hm i j v w ⟨hi, -, -⟩ - hv - h1 -
    cases hm
    rcases get i v hv with ⟨rfl, rfl⟩ | ⟨rfl, rfl⟩ | ⟨rfl, rfl⟩ | ⟨rfl, rfl⟩
    · omega
    · norm_num at h1
    · norm_num at h1
    · norm_num at h1
  · rintro m hm i j v w ⟨hi, hi', -⟩ ⟨hj, hj', -⟩ hv hw h1 h2
    cases hm
    rcases get i v hv with ⟨rfl, rfl⟩ | ⟨rfl, rfl⟩ | ⟨rfl, rfl⟩ | ⟨rfl, rfl⟩
    · omega
    · norm_num at h1
    · rcases get j w hw with ⟨rfl, rfl⟩ | ⟨rfl, rfl⟩ | ⟨rfl, rfl⟩ | ⟨rfl, rfl⟩
      · omega
      · norm_num at h2
      · rfl
      · omega
    · omega

/-- **C114.** A grid of small extent whose latitudes descend counts as ascending; lines in the area are lost then, and one outside is kept. -/
theorem C114_small :
    ∃ lats : List ℚ, lats.Pairwise (· > ·) ∧ indices lats smLons (some (-3400005 / 100000)) (some (-34)) none none = some (3, 4, 0, 5) ∧
      lats[0]? = some (-34 : ℚ) ∧ lats[3]? = some (-340003 / 10000 : ℚ) :=
  ⟨[-34, -340001 / 10000, -340002 / 10000, -340003 / 10000], by decide +kernel, by decide +kernel, by decide +kernel, by decide +kernel⟩

end Verif.Cut
