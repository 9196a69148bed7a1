import Verif.PlotU.PropsTwo

/-! # Samples for C100 and C101 -/

namespace Verif.PlotU

open Verif.Polygon (Pt IsSqrt isSqrt_real OnSeg)
open Verif.FileFn (Var)

/-- Square roots of squares of rational numbers. -/
def root (q : ℚ) : ℚ := (Nat.sqrt q.num.natAbs : ℚ) / (Nat.sqrt q.den : ℚ)

/-- A square of two triangles with values at two times. -/
def file {K : Type*} [Field K] (vars : String → Option (Var K)) : Sww K :=
  ⟨[0, 10], [⟨0, 0⟩, ⟨6, 0⟩, ⟨0, 6⟩, ⟨6, 6⟩], [(0, 1, 2), (1, 3, 2)], ⟨100, 200⟩, vars⟩

/-- Stage, bed and momentum at the nodes; the bed is fixed. -/
def nodeVars {K : Type*} [Field K] : String → Option (Var K) := fun s =>
  if s = "stage" then some (.two [[1, 1, 1, 1], [3, 2, 2, 2]])
  else if s = "elevation" then some (.one [0, 0, 0, 3])
  else if s = "xmomentum" then some (.two [[3, 0, 0, 0], [-6, 0, 0, 0]])
  else if s = "ymomentum" then some (.two [[4, 0, 0, 0], [0, 0, 0, 0]])
  else none

/-- The file on rational numbers. -/
def qFile : Sww ℚ := file nodeVars

/-- Reading all times: stages, depths (zero where the bed is above the water) and times. -/
example : (getOutput root qFile 0 .all).map (fun o => (o.time, o.stage, o.height)) =
    some ([0, 10], [[1, 1, 1, 1], [3, 2, 2, 2]], [[1, 1, 1, 0], [3, 2, 2, 0]]) := by decide +kernel

/-- 'max' keeps the sign of the momentum. -/
example : (getOutput root qFile 0 .max).map (fun o => (o.time, o.stage, o.xmom, o.ymom)) =
    some ([10], [[3, 2, 2, 2]], [[-6, 0, 0, 0]], [[4, 0, 0, 0]]) := by decide +kernel

/-- A time that is not in the file. -/
example : (getOutput root qFile 0 (.list [2])).isNone = true := by decide +kernel

/-- Means of the corners. -/
example : (getCentroids root qFile false 0 .last).map (fun o => (o.time, o.stage, o.height, o.xmom)) =
    some ([10], [[7 / 3, 2]], [[7 / 3, 1]], [[-2, 0]]) := by decide +kernel

/-- The file on real numbers: the hypotheses of `C100_rows` and `C100_max` are met. -/
noncomputable def rFile : Sww ℝ := file nodeVars

example : ∃ o, getOutput Real.sqrt rFile 0 .all = some o ∧ At o.vel 0 0 (velocity 0 (Real.sqrt (3 ^ 2 + 4 ^ 2)) (clip (1 - 0))) := by
  refine ⟨_, rfl, ?_⟩
  exact ⟨_, rfl, rfl⟩

example : ∃ a b c : ℝ, Vel 0 3 1 a ∧ Vel 0 4 1 b ∧ 0 ≤ c ∧ c ^ 2 = a ^ 2 + b ^ 2 := by
  obtain ⟨o, ho⟩ : ∃ o, getOutput Real.sqrt rFile 0 .all = some o := ⟨_, rfl⟩
  have h := C100_rows isSqrt_real le_rfl ho (l := [0, 1]) rfl (k := 0) (i := 0) (j := 0) rfl (by simp [rFile, file])
  obtain ⟨-, h⟩ := h.2.2.2.2.2 1 (Or.inr ⟨by simp [rFile, file, nodeVars], 1, 0, ⟨.two [[1, 1, 1, 1], [3, 2, 2, 2]], by simp [rFile, file, nodeVars], ⟨[1, 1, 1, 1], rfl, rfl⟩⟩,
    ⟨.one [0, 0, 0, 3], by simp [rFile, file, nodeVars], rfl⟩, by norm_num⟩)
  obtain ⟨a, b, c, -, -, -, h1, h2, h3, h4⟩ := h 3 4 ⟨.two [[3, 0, 0, 0], [-6, 0, 0, 0]], by simp [rFile, file, nodeVars], ⟨[3, 0, 0, 0], rfl, rfl⟩⟩
    ⟨.two [[4, 0, 0, 0], [0, 0, 0, 0]], by simp [rFile, file, nodeVars], ⟨[4, 0, 0, 0], rfl, rfl⟩⟩
  exact ⟨a, b, c, h1, h2, h3, h4⟩

/-- The hypotheses of `C100_centroids` are met. -/
example : (∃ o, getCentroids Real.sqrt rFile false 0 .all = some o) ∧ FixedCent rFile ∧ Cent rFile "stage" 0 0 1 ∧
    CentFlow rFile false 0 "xmomentum" 0 0 1 (velocity 0 1 1) := by
  have hv : rFile.vars "xmomentum" = some (.two [[3, 0, 0, 0], [-6, 0, 0, 0]]) := by simp [rFile, file, nodeVars]
  have hs : rFile.vars "stage" = some (.two [[1, 1, 1, 1], [3, 2, 2, 2]]) := by simp [rFile, file, nodeVars]
  have he : rFile.vars "elevation" = some (.one [0, 0, 0, 3]) := by simp [rFile, file, nodeVars]
  have hst : Corners rFile 0 (rFile.Holds "stage" 0) 1 1 1 := ⟨_, rfl, ⟨_, hs, ⟨_, rfl, rfl⟩⟩, ⟨_, hs, ⟨_, rfl, rfl⟩⟩, ⟨_, hs, ⟨_, rfl, rfl⟩⟩⟩
  refine ⟨⟨_, rfl⟩, Or.inr ⟨by simp [rFile, file, nodeVars], _, he⟩, Or.inr ⟨by simp [rFile, file, nodeVars], 1, 1, 1, hst, by norm_num⟩, Or.inr
    ⟨by simp [rFile, file, nodeVars], 3, 0, 0, 1, 1, 1, 0, 0, 0, ⟨_, rfl, ⟨_, hv, ⟨_, rfl, rfl⟩⟩, ⟨_, hv, ⟨_, rfl, rfl⟩⟩, ⟨_, hv, ⟨_, rfl, rfl⟩⟩⟩,
      hst, ⟨_, rfl, ⟨_, he, rfl⟩, ⟨_, he, rfl⟩, ⟨_, he, rfl⟩⟩, ?_⟩⟩
  simp only [Bool.false_eq_true, if_false]
  exact ⟨by norm_num, by convert velocity_vel le_rfl (1 : ℝ) 1 using 1; norm_num⟩

/-! ## Where the depths are wrong -/

/-- A bed that is eroded from 5 to 0 under a stage that falls from 6 to 4. -/
def erodedVars {K : Type*} [Field K] : String → Option (Var K) := fun s =>
  if s = "stage" then some (.two [[6, 6, 6, 6], [4, 4, 4, 4]])
  else if s = "elevation" then some (.two [[5, 5, 5, 5], [0, 0, 0, 0]])
  else if s = "xmomentum" then some (.two [[0, 0, 0, 0], [0, 0, 0, 0]])
  else if s = "ymomentum" then some (.two [[0, 0, 0, 0], [0, 0, 0, 0]])
  else none

/-- The file. -/
def eroded : Sww ℚ := file erodedVars

/-- **C100.** A bed that changes and no stored depth: the largest depth of 'max' is taken over the highest bed; here it is 1 although the water is 4
deep at the second time. -/
theorem C100_max_depth_wrong : ∃ (f : Sww ℚ) (o : Out ℚ), getOutput root f 0 .max = some o ∧ At o.height 0 0 1 ∧ Depth f 1 0 4 ∧ 1 < f.time.length ∧
    ∀ o', getOutput root f 0 .all = some o' → At o'.height 1 0 4 := by
  have hd : Depth eroded 1 0 4 := Or.inr ⟨rfl, 4, 0, ⟨_, rfl, ⟨_, rfl, rfl⟩⟩, ⟨_, rfl, ⟨_, rfl, rfl⟩⟩, by norm_num⟩
  refine ⟨eroded, _, rfl, ⟨_, rfl, by decide +kernel⟩, hd, by decide, fun o' ho' => ?_⟩
  obtain ⟨st, el, xm, ym, h1, h2, h3, h4, hin, rfl⟩ := getOutput_some ho'
  simp only [Slices.inds, select]
  rw [← depth_height (inds := some (List.range eroded.time.length)) h1 h2 (Or.inl rfl) hd]
  exact at_table (by simp [eroded, file]) (by simp [eroded, file])

/-- The file with values at the centroids. -/
def erodedCent : Sww ℚ := file fun s =>
  if s = "stage_c" then some (.two [[6, 6], [4, 4]])
  else if s = "elevation_c" then some (.two [[5, 5], [0, 0]])
  else if s = "height_c" then some (.two [[1, 1], [4, 4]])
  else if s = "xmomentum_c" then some (.two [[0, 0], [8, 8]])
  else if s = "ymomentum_c" then some (.two [[0, 0], [0, 0]])
  else none

/-- **C100.** A bed that changes: the depth at centroids is the stage less the bed at the first of the times, even if the depth is stored; here it is
−1 where the stored depth is 4. The volume of water computed from it misses the second time altogether. -/
theorem C100_centroid_depth_wrong : ∃ (f : Sww ℚ) (o : Out ℚ), getCentroids root f false 0 .all = some o ∧ f.Holds "height_c" 1 0 4 ∧
    f.Holds "stage_c" 1 0 4 ∧ f.Holds "elevation_c" 1 0 0 ∧ At o.height 1 0 (-1) ∧
    waterVolume f.x f.vols o.stage (firstRow o.elev) false none = [36, 0] := by
  refine ⟨erodedCent, _, rfl, ⟨_, rfl, ⟨_, rfl, rfl⟩⟩, ⟨_, rfl, ⟨_, rfl, rfl⟩⟩, ⟨_, rfl, ⟨_, rfl, rfl⟩⟩, ?_, ?_⟩
  · exact ⟨[-1, -1], by decide +kernel, rfl⟩
  · decide +kernel

/-- **C100.** A bed that changes and only values at nodes: all times can be read at the centroids but one of them cannot. -/
theorem C100_one_time_fails : ∃ f : Sww ℚ, (getCentroids root f false 0 .all).isSome ∧ getCentroids root f false 0 .last = none ∧
    (getOutput root f 0 .last).isSome := ⟨eroded, by decide +kernel, by rfl, by decide +kernel⟩

/-! ## C101 -/

/-- The second file of a run. -/
def qNext : Sww ℚ := { qFile with time := [20, 30] }

example : (combine root 0 [qFile, qNext]).map (fun p => (p.time, p.stage)) =
    some ([0, 10, 20, 30], [[1, 1, 1, 1], [3, 2, 2, 2], [1, 1, 1, 1], [3, 2, 2, 2]]) := by decide +kernel

/-- The centroids are those of the first two times only. -/
example : ∃ p, combine root 0 [qFile, qNext] = some p ∧ p.time = [0, 10, 20, 30] ∧ (centroidsOf root qFile p false).map Out.time = some [0, 10] :=
  ⟨_, rfl, by decide +kernel, by decide +kernel⟩

/-- **C101.** A bed that changes: putting files together keeps the bed of the first file only, so that there are fewer beds than times. -/
theorem C101_bed_lost : ∃ (f : Sww ℚ) (p : Out ℚ) (rows : List (List ℚ)), combine root 0 [f, { f with time := [20, 30] }] = some p ∧
    p.elev = .two rows ∧ rows.length = 2 ∧ p.stage.length = 4 ∧ p.time = [0, 10, 20, 30] :=
  ⟨eroded, _, _, rfl, rfl, by decide +kernel, by decide +kernel, by decide +kernel⟩

/-- Files on different meshes. -/
example : combine root 0 [qFile, { qFile with vols := [(0, 1, 2)] }] = none := by rfl

example : waterVolume qFile.x qFile.vols [[1, 2], [-1, 3]] [0, 1] false none = [36, 36] := by decide +kernel
example : waterVolume qFile.x qFile.vols [[1, 2], [-1, 3]] [0, 1] true (some [0]) = [1, 0] := by decide +kernel
example : area qFile.x qFile.vols 0 = 18 := by decide +kernel
example : Tri qFile.x qFile.vols 1 ⟨6, 0⟩ ⟨6, 6⟩ ⟨0, 6⟩ := ⟨_, rfl, rfl, rfl, rfl⟩

/-- A transect of length 5 over three points: one is too far away, one beyond the end. -/
example : nearTransect root [⟨3, 4⟩, ⟨1, 0⟩, ⟨6, 8⟩, ⟨3, 0⟩] ⟨0, 0⟩ ⟨3, 4⟩ 1 = [(0, 5), (1, 3 / 5)] := by decide +kernel
example : ∃ L : ℝ, 0 < L ∧ L ^ 2 = ((3 : ℝ) - 0) ^ 2 + (4 - 0) ^ 2 := ⟨5, by norm_num, by norm_num⟩

example : containing root qFile.x qFile.vols ⟨5, 5⟩ [0, 1] = some 1 := by decide +kernel
example : containing root qFile.x qFile.vols ⟨3, 3⟩ [1, 0] = some 1 := by decide +kernel
example : containing root qFile.x qFile.vols ⟨7, 3⟩ [1, 0] = none := by decide +kernel

/-- The hypotheses of `C101_containing` are met: a point on the common side. -/
example : ∀ k ∈ [0, 1], ∀ A B C, Tri rFile.x rFile.vols k A B C →
    Verif.Polygon.Clear [A, B, C] ⟨3, 3⟩ ∨ OnSeg ⟨3, 3⟩ A B ∨ OnSeg ⟨3, 3⟩ B C ∨ OnSeg ⟨3, 3⟩ C A := by
  rintro k hk A B C ⟨t, ht, h0, h1, h2⟩
  simp only [List.mem_cons, List.not_mem_nil, or_false] at hk
  rcases hk with rfl | rfl
  · simp only [rFile, file, List.getElem?_cons_zero, Option.some.injEq] at ht
    subst ht
    simp only [rFile, file, List.getElem?_cons_zero, List.getElem?_cons_succ, Option.some.injEq] at h1 h2
    subst h1 h2
    exact Or.inr (Or.inr (Or.inl ⟨1 / 2, by norm_num, by norm_num, by norm_num, by norm_num⟩))
  · simp only [rFile, file, List.getElem?_cons_zero, List.getElem?_cons_succ, Option.some.injEq] at ht
    subst ht
    simp only [rFile, file, List.getElem?_cons_zero, List.getElem?_cons_succ, Option.some.injEq] at h0 h2
    subst h0 h2
    exact Or.inr (Or.inr (Or.inr ⟨1 / 2, by norm_num, by norm_num, by norm_num, by norm_num⟩))

/-- Centroids at (102, 202) and (104, 204). -/
example : nearPoint qFile ⟨104, 205⟩ 10 = some 1 := by decide +kernel
example : nearPoint qFile ⟨4, 4⟩ 10 = none := by decide +kernel
example : Middle qFile 1 ⟨104, 204⟩ := ⟨⟨6, 0⟩, ⟨6, 6⟩, ⟨0, 6⟩, ⟨_, rfl, rfl, rfl, rfl⟩, by norm_num [qFile, file], by norm_num [qFile, file]⟩

end Verif.PlotU
