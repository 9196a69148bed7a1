import Verif.Damage.PropsCurve
import Mathlib.Data.Rat.Floor

/-! # A street, and what does not come out as one would wish -/

namespace Verif.Damage

/-- Two places, two files with two times each; the second place is outside in the second file. -/
def smFiles : List (List (List (Val ℚ))) :=
  [[[⟨some 2, some 1, some 3, some 4⟩, ⟨some 3, some 1, some 0, some 0⟩], [⟨some 1, some 1, some 0, some 0⟩, ⟨some (3 / 2), some 1, some 0, some 1⟩]],
    [[⟨some 5, some 4, some 0, some 0⟩, ⟨none, some 1, some 0, some 0⟩], [⟨none, none, none, none⟩, ⟨none, none, none, none⟩]]]

example := C112_inundation (fun x : ℚ => if x = 25 then 5 else x) (3 / 10) 2 smFiles (by decide) 1 (by decide)

example := C112_order (fun x : ℚ => if x = 25 then 5 else x) (3 / 10) 2 smFiles smFiles.reverse (List.reverse_perm _).symm (by decide)

example : calcMax (fun x : ℚ => if x = 25 then 5 else x) (3 / 10) 2 smFiles = [(17 / 10, 5), (1 / 5, 1)] := by decide +kernel

/-- **C112.** A place which is outside all files has a negative momentum if the height of the floor is given. -/
theorem C112_negative {K : Type} [Field K] [LinearOrder K] [IsStrictOrderedRing K] (sqrt : K → K) (ground : K) (hg : 0 < ground) (n : ℕ)
    (files : List (List (List (Val K)))) (hf : ∀ f ∈ files, f.length = n) (i : ℕ) (hi : i < n) (hout : ∀ w z uh vh, ¬ Seen files i w z uh vh) :
    ∃ d m, (calcMax sqrt ground n files)[i]? = some (d, m) ∧ d = -ground ∧ m < 0 := by
  obtain ⟨d, m, h1, ⟨h2, -⟩, ⟨h3, -⟩⟩ := C112_inundation sqrt ground n files hf i hi
  refine ⟨d, m, h1, ?_, ?_⟩
  · rcases h2 with h | ⟨w, z, uh, vh, h, -⟩
    · exact h
    · exact absurd h (hout w z uh vh)
  · rcases h3 with h | ⟨w, z, uh, vh, h, -⟩
    · rw [h]; linarith
    · exact absurd h (hout w z uh vh)

example := C112_negative (fun x : ℚ => x) (3 / 10) (by norm_num) 1 [[[]]] (by simp) 0 (by decide)
  (by rintro w z uh vh ⟨f, hf, ts, hts, v, hv, -⟩; simp at hf; subst hf; simp at hts; subst hts; cases hv)

/-- **C112.** Files of other runs are read as well if their names contain the base name. -/
theorem C112_other_runs : chosen "run1".toList ["run1.sww".toList, "run10.sww".toList, "dry_run1_old.sww".toList, "run1.csv".toList] =
    some ["run1.sww".toList, "run10.sww".toList, "dry_run1_old.sww".toList] := by decide +kernel

example := C112_files "run1".toList (by decide) _ _ C112_other_runs

/-- Four houses near the shore in 1.5 m, one in the dry, one in 10 m far away. -/
def smHouses : List (House ℚ) :=
  [⟨3 / 2, 100, "Timber", 100, 50⟩, ⟨3 / 2, 120, "Double Brick", 100, 50⟩, ⟨-3 / 10, 90, "Brick Veneer", 100, 50⟩, ⟨3 / 2, 125, "", 100, 50⟩,
    ⟨10, 1000, "Double Brick", 100, 50⟩, ⟨3 / 2, 1, "Brick Veneer", 100, 50⟩]

def smRnd (k : ℕ) : ℕ := 7 * k + 5

def smResult : Result ℚ := (assess smRnd smHouses).getD ⟨[], [], [], [], [], [], []⟩

theorem smResult_ok : assess smRnd smHouses = some smResult := by
  obtain ⟨r, hr⟩ := (C112_assessed smRnd smHouses).mpr (by decide +kernel)
  unfold smResult
  rw [hr]; rfl

example : smResult.collapsed = [true, true, false, false, false, false] ∧ smResult.inundated = [true, true, false, true, true, true] ∧
    smResult.structLoss.take 4 = [100, 100, 0, 629 / 10] ∧ smResult.info.take 3 = [some (3 / 5, 2, 4), some (3 / 5, 2, 4), none] := by
  refine ⟨?_, ?_, ?_, ?_⟩ <;> decide +kernel

example := C112_house smRnd smHouses smResult smResult_ok 1 _ rfl

example := C112_collapses smRnd smHouses smResult smResult_ok (3 / 5) (by norm_num)

example := C112_info smRnd smHouses smResult smResult_ok 1 _ rfl

example := C112_fraction smRnd smHouses smResult smResult_ok 1 _ rfl

example := C112_deeper smRnd smHouses smResult smResult_ok 3 5 _ _ rfl rfl (by decide +kernel)

example := C112_deeper smRnd smHouses smResult smResult_ok 2 5 _ _ rfl rfl (by norm_num) rfl (by decide +kernel) (by decide +kernel)

example := C112_more_than_all smRnd smHouses smResult smResult_ok 4 _ rfl (by decide +kernel)

/-- **C112.** Ten houses with a probability of 5% each: none of them collapses, whatever the random numbers. -/
theorem C112_half (rnd : ℕ → ℕ) (r : Result ℚ) (h : assess rnd (List.replicate 10 ⟨1, 100, "", 1, 1⟩) = some r) (i : ℕ) :
    r.collapsed[i]? ≠ some true := by
  have n := C112_collapses rnd _ r h (5 / 100) (by norm_num)
  have e : ((List.range (List.replicate 10 (⟨1, 100, "", 1, 1⟩ : House ℚ)).length).filter fun i =>
      decide (atRisk (List.replicate 10 (⟨1, 100, "", 1, 1⟩ : House ℚ)) (5 / 100) i)).length = 10 := by decide +kernel
  rw [e] at n
  have z : Nearest (((10 : ℕ) : ℚ) * (5 / 100)) 0 := by
    refine ⟨?_, fun _ => ⟨0, rfl⟩⟩
    norm_num [abs_of_pos]
  have := nearest_unique _ _ _ n z
  have z0 : ((List.range (List.replicate 10 (⟨1, 100, "", 1, 1⟩ : House ℚ)).length).filter fun i =>
      decide (atRisk (List.replicate 10 (⟨1, 100, "", 1, 1⟩ : House ℚ)) (5 / 100) i) && decide (r.collapsed[i]? = some true)).length = 0 := by
    exact_mod_cast this
  rw [List.length_eq_zero_iff, List.filter_eq_nil_iff] at z0
  intro hc
  by_cases hi : i < 10
  · refine z0 i (List.mem_range.mpr (by simpa using hi)) ?_
    rw [Bool.and_eq_true, decide_eq_true_iff, decide_eq_true_iff]
    refine ⟨⟨⟨1, 100, "", 1, 1⟩, by rw [List.getElem?_replicate, if_pos hi], by decide +kernel⟩, hc⟩
  · have hn : (List.replicate 10 (⟨1, 100, "", 1, 1⟩ : House ℚ))[i]? = none := List.getElem?_eq_none (by simpa using hi)
    have hl : r.collapsed.length = 10 := by
      unfold assess at h
      split at h
      · cases h; simp
      · cases h
    rw [List.getElem?_eq_none (by omega)] at hc
    cases hc

end Verif.Damage
