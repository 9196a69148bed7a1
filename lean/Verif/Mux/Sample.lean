import Verif.Mux.PropsChecks

/-! # Two stations, two sources -/

namespace Verif.Mux

/-- Two stations, three steps. -/
def smHeads : List (Head ℚ) := [⟨-20, 115, 7, 2, 3, 0⟩, ⟨-21, 116, 9, 2, 3, 0⟩]

/-- Values of the first source; the stations record from step 1 to 2 and from step 2 to 3. -/
def smV1 (j t : ℕ) : ℚ := 10 * (j + 1) + t

def smV2 (j t : ℕ) : ℚ := -(j : ℚ) - t

def smA : Src ℚ := ⟨smHeads, [1, 2], [2, 3], [2, 11, 4, 12, 22, 6, 23]⟩

def smB : Src ℚ := ⟨smHeads, [1, 1], [3, 3], [2, -1, -2, 4, -2, -3, 6, -3, -4]⟩

def smV (s : Src ℚ) : ℕ → ℕ → ℚ := if s.fros = [1, 2] then smV1 else smV2

theorem smA_written : Written smA 2 smV1 where
  steps := by decide
  block := ⟨fun t => 2 * t, 3, by decide, by
    have : records smA 2 (fun t => 2 * t) smV1 3 = smA.block := by decide +kernel
    rw [this]⟩

theorem smB_written : Written smB 2 smV2 where
  steps := by decide
  block := ⟨fun t => 2 * t, 3, by decide, by
    have : records smB 2 (fun t => 2 * t) smV2 3 = smB.block := by decide +kernel
    rw [this]⟩

theorem sm_ready : Ready [smA, smB] 2 3 2 smV where
  some := ⟨by simp, by decide⟩
  heads := by
    intro s hs
    simp only [List.mem_cons, List.not_mem_nil, or_false] at hs
    rcases hs with rfl | rfl <;> simp [smA, smB, smHeads]
  written := by
    intro s hs
    simp only [List.mem_cons, List.not_mem_nil, or_false] at hs
    rcases hs with rfl | rfl
    · have : smV smA = smV1 := rfl
      rw [this]; exact smA_written
    · have : smV smB = smV2 := by
        unfold smV
        rw [if_neg (by decide)]
      rw [this]; exact smB_written

example := C110_demux smA_written [] (show 1 < 2 by decide) 3 0

example : (List.range 3).map (fun k => value smA smV1 0 1 (k + 1)) = [0, 22, 23] := by decide +kernel

example := C110_read sm_ready [1 / 2, 3] rfl [1, 0] (by decide)

/-- Gauges in the order asked for, from the first step to the last one; the first station has ended in one source at step 3. -/
example : (match readPy [smA, smB] [1 / 2, 3] [1, 0] with
    | .ok r => some (r.times, r.lats, r.elevation, r.quantity, r.starttime)
    | .error _ => none) =
    some ([0, 2, 4], [-21, -20], [-9, -7], [[-6, 2, -1 / 2], [5 / 2, 0, 99]], 2) := by decide +kernel

example := C110_times sm_ready [1 / 2, 3] rfl [1, 0] (by decide) (by norm_num) (by decide)
  ⟨1, by decide, 0, by decide, smA, by simp, smB, by simp, by decide⟩ (by norm_num)

/-- **C110.** A file that has been cut off is not refused: values of the source read before are used in place of those that are missing. -/
theorem C110_truncated :
    ∃ (a b : Src ℚ) (v : ℕ → ℕ → ℚ), Written b 2 v ∧ b.heads = a.heads ∧
      (∃ r, readPy [a, { b with block := b.block.take 3 }] [1, 1] [] = .ok r) ∧
      (match readPy [a, b] [0, 1] [] with | .ok r => some r.quantity | .error _ => none) = some [[-1, -2, 99], [-2, -3, -4]] ∧
      (match readPy [a, { b with block := b.block.take 3 }] [0, 1] [] with | .ok r => some r.quantity | .error _ => none) =
        some [[-1, 22, 99], [-2, 6, 0]] := by
  refine ⟨smA, smB, smV2, smB_written, rfl, ?_, by decide +kernel, by decide +kernel⟩
  have : (match readPy [smA, { smB with block := smB.block.take 3 }] [1, 1] [] with | .ok _ => true | .error _ => false) = true := by
    decide +kernel
  split at this
  · next r hr => exact ⟨r, hr⟩
  · cases this

/-- One station whose values are 33 in each of three sources. -/
def sm99 : Src ℚ := ⟨[⟨-20, 115, 7, 2, 3, 0⟩], [1], [3], [2, 33, 4, 33, 6, 33]⟩

/-- **C110.** Sums that happen to be 99 count as missing: the fourth source is not added. -/
theorem C110_99 : (match readPy [sm99, sm99, sm99, sm99] [1, 1, 1, 1] [] with | .ok r => some r.quantity | .error _ => none) =
      some [[99, 99, 99]] ∧
    ∀ k, k < 3 → weighted (parts [sm99, sm99, sm99, sm99] [1, 1, 1, 1] (fun _ _ _ => 33) 0 (k + 1)) = 132 := by
  refine ⟨by decide +kernel, by decide +kernel⟩

/-- A source in which the second station never records. -/
def smC : Src ℚ := ⟨smHeads, [1, -1], [3, -1], [2, 11, 4, 12, 6, 13]⟩

theorem smC_rows : readMux2 [smC] [1] [] = .ok (3, 2, [(0, ⟨[11, 12, 13], 1, 3⟩), (1, ⟨[0, 0, 0], -1, -1⟩)]) := by
  have h : (match readMux2 [smC] [1] [] with | .ok r => some r | .error _ => none) =
      some (3, 2, [(0, ⟨[11, 12, 13], 1, 3⟩), (1, ⟨[0, 0, 0], -1, -1⟩)]) := by decide +kernel
  split at h
  · next r hr => rw [hr, Option.some.inj h]
  · cases h

/-- The hypotheses of `C110_early` can be met: a station that never records makes all series two steps early. -/
theorem C110_never : (match readPy [smC] [1] [] with | .ok r => some (r.times.map (· + r.starttime), r.quantity) | .error _ => none) =
      some ([-2, 0, 2, 4, 6], [[11, 12, 13, 0, 0], [0, 0, 0, 0, 0]]) ∧
    (match readPy [smC] [1] [0] with | .ok r => some (r.times.map (· + r.starttime), r.quantity) | .error _ => none) =
      some ([2, 4, 6], [[11, 12, 13]]) := by
  refine ⟨by decide +kernel, by decide +kernel⟩

example := C110_early (srcs := [smC]) (by simp) rfl smC_rows (by norm_num) (by norm_num) (finish := 3)
  ⟨⟨_, List.mem_cons_of_mem _ List.mem_cons_self, rfl⟩, by rintro x ⟨r, hr, rfl⟩; simp at hr; rcases hr with rfl | rfl <;> simp⟩
  ⟨⟨_, List.mem_cons_self, rfl⟩, by rintro x ⟨r, hr, rfl⟩; simp at hr; rcases hr with rfl | rfl <;> simp⟩ (by norm_num) (by norm_num)

/-- Settings for `urs2sts`. -/
def smO : Options ℚ := ⟨some [1 / 2, 3], some [1, 0], none, none, 1, 2, fun lat lon => (50, 1000 * lon, 1000 * lat)⟩

def smFile : StsFile ℚ := match urs2sts smO [smA, smB] [smA, smB] [smA, smB] with
  | .ok f => f
  | .error _ => ⟨0, [], 0, 0, 0, [], [], [], [], [], [], []⟩

theorem smFile_ok : urs2sts smO [smA, smB] [smA, smB] [smA, smB] = .ok smFile := by
  have : (match urs2sts smO [smA, smB] [smA, smB] [smA, smB] with | .ok _ => true | .error _ => false) = true := by decide +kernel
  unfold smFile
  split at this
  · next f hf => simp only [hf]
  · cases this

example : smFile.stage = [[-11, 6], [5, 1], [0, 1]] ∧ smFile.xmomentum = [[12, 65 / 2], [28, 0], [-9 / 2, 0]] ∧
    smFile.ymomentum = [[-12, -65 / 2], [-28, 0], [9 / 2, 0]] ∧ stsBoundary smFile = [(116000, -21000), (115000, -20000)] ∧
    smFile.starttime = 2 ∧ smFile.times = [0, 2, 4] := by
  refine ⟨?_, ?_, ?_, ?_, ?_, ?_⟩ <;> decide +kernel

example := fun a b c => C111_file (a := a) (b := b) (c := c) smFile_ok

example := C111_agree smFile_ok

example := fun c => C111_origin (c := c) smFile_ok

example : smFile.xll = 115000 ∧ smFile.yll = -21000 ∧ smFile.zone = 50 ∧ smFile.permutation = [1, 0] ∧ smFile.x = [1000, 0] ∧ smFile.y = [0, 1000] := by
  refine ⟨?_, ?_, ?_, ?_, ?_, ?_⟩ <;> decide +kernel

example : ∃ r, readPy [smA, smB] [1 / 2, 3] [1, 0] = .ok r ∧ 2 ≤ r.times.length := by
  obtain ⟨a, b, c, h, -⟩ := C111_agree smFile_ok
  exact ⟨a, h, (C110_weights h).2.2⟩

/-- All hypotheses of `C111_stage` are met. -/
example := C111_stage smFile_ok sm_ready [1 / 2, 3] rfl rfl [1, 0] rfl (by decide) (by norm_num) (by decide)
  ⟨1, by decide, 0, by decide, smA, by simp, smB, by simp, by decide⟩ (by norm_num)
  (by
    intro a c ha hc
    obtain rfl : a = c := by rw [ha] at hc; cases hc; rfl
    refine ⟨rfl, rfl, ?_⟩
    have : (match readPy [smA, smB] [1 / 2, 3] [1, 0] with | .ok r => (r.lats.zip r.lons).length | .error _ => 0) = 2 := by decide +kernel
    rw [ha] at this
    exact this)
  0 1 2 rfl (by decide) (by unfold Data; decide +kernel)
  (by
    intro m h1 h2
    have : m = 1 ∨ m = 2 := by simp at h2; omega
    unfold Data
    rcases this with rfl | rfl <;> decide +kernel)

end Verif.Mux
