import Verif.PlotU.Sample

/-! # C100, C101: the bed under 'max', and centroids of an object made with 'max' -/

namespace Verif.PlotU

set_option linter.unusedSectionVars false

open Verif.FileFn (Var)

variable {K : Type*} [Field K] [LinearOrder K] [IsStrictOrderedRing K]

/-- **C100.** 'max' and a bed that changes: the bed returned is the highest at each node, not that of largest magnitude; if no depth is stored, the
largest depth is that over this bed. -/
theorem C100_max_bed {sq : K → K} {f : Sww K} {hmin : K} {o : Out K} (h : getOutput sq f hmin .max = some o) {rows : List (List K)}
    (hel : f.vars "elevation" = some (.two rows)) {j : ℕ} (hj : j < f.x.length)
    (hfull : ∀ i, i < f.time.length → ∀ name ∈ ["stage", "elevation"], ∃ a, f.Holds name i j a) :
    ∃ bed b, o.elev = .two bed ∧ At bed 0 j b ∧ Peak f.time.length (fun i => f.Holds "elevation" i j) b ∧
      (f.vars "height" = none → ∃ v, At o.height 0 j v ∧ Peak f.time.length (fun i d => ∃ w, f.Holds "stage" i j w ∧ d = max (w - b) 0) v) := by
  obtain ⟨st, el, xm, ym, h1, h2, h3, h4, hin, rfl⟩ := getOutput_some h
  have hm : 0 < f.time.length := hin 0 (by simp [Slices.inds])
  rw [hel] at h2
  obtain rfl := Option.some.inj h2
  simp only [Slices.inds, select, getInds]
  have hb : ∀ i a, i < f.time.length → f.Holds "elevation" i j a → (rows.getD i []).getD j 0 = a := fun i a _ ha => by
    have := holds_value hel ha
    simpa [Var.value] using this
  obtain ⟨b, hAt, hP⟩ := peak_of (g := fun i j => (rows.getD i []).getD j 0) hm hj hb fun i hi => hfull i hi "elevation" (by simp)
  refine ⟨_, b, rfl, hAt, hP, fun hh => ?_⟩
  have hbed : ∀ i, elevAt none f.time.length (.two rows) i j = b := fun i => by
    obtain ⟨r, hr, hrj⟩ := hAt
    simp only [overTime, List.getElem?_cons_zero, Option.some.injEq] at hr
    subst hr
    simp only [List.getElem?_map, List.getElem?_range hj, Option.map_some, Option.some.injEq] at hrj
    rw [← hrj]
    simp only [elevAt, Var.value]
  refine peak_of hm hj ?_ fun i hi => ?_
  · rintro i d - ⟨w, hw, rfl⟩
    simp only [heightAt, hh, hbed, holds_value h1 hw, clip]
    rcases lt_or_ge 0 (w - b) with hp | hp
    · rw [if_pos hp, max_eq_left hp.le]
    · rw [if_neg (not_lt.2 hp), max_eq_right hp]
  · obtain ⟨w, hw⟩ := hfull i hi "stage" (by simp)
    exact ⟨_, w, hw, rfl⟩

/-- **C101.** Centroids of an object made with 'max' are again those of 'max', with the smallest depth 0.001 whatever was given before. -/
theorem C101_max_again {sq : K → K} {hmin : K} {f : Sww K} {p : Out K} (h : getOutput sq f hmin .max = some p) (ex : Bool) :
    centroidsOf sq f p ex = getCentroids sq f ex (1 / 10 ^ 3) .max := by
  obtain ⟨st, el, xm, ym, -, -, -, -, -, rfl⟩ := getOutput_some h
  rfl

/-- A bed that is eroded from 5 to 0: all values are there and 'max' answers. -/
example : (∃ o, getOutput root eroded 0 .max = some o) ∧ eroded.vars "elevation" = some (.two [[5, 5, 5, 5], [0, 0, 0, 0]]) ∧ 0 < eroded.x.length ∧
    ∀ i, i < eroded.time.length → ∀ name ∈ ["stage", "elevation"], ∃ a, eroded.Holds name i 0 a := by
  refine ⟨⟨_, rfl⟩, rfl, by decide, fun i hi name hn => ?_⟩
  have h2 : i < 2 := hi
  simp only [List.mem_cons, List.not_mem_nil, or_false] at hn
  rcases hn with rfl | rfl <;> interval_cases i <;> exact ⟨_, _, rfl, _, rfl, rfl⟩

end Verif.PlotU
