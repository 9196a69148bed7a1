import Verif.Bdry.PropsBind
import Verif.Bdry.PropsMean
import Mathlib.Analysis.Real.Sqrt

/-! Concrete cases that meet the hypotheses of the boundary theorems. -/

set_option linter.unusedSectionVars false

namespace Verif.Bdry

/-- Two boundary edges: `(0, 2)` with normal `(3/5, 4/5)` and `(1, 0)` with normal `(0, -1)`. -/
def sampleDom : Dom ℚ where
  conserved := [.stage, .xmom, .ymom]
  evolved := [.stage, .xmom, .ymom]
  cells := fun j => if j = 0 then 0 else 1
  edges := fun j => if j = 0 then 2 else 0
  edge := fun q v e => match q with
    | .stage => 2 + v + e
    | .xmom => 1 + v
    | .ymom => 2 - e
    | .elev => 1
    | .height => 1 + v + e
    | .xvel => 3
    | .yvel => 4
  cent := fun q v => match q with
    | .stage => 3 + v
    | .elev => 1
    | _ => 0
  normal := fun v _ => if v = 0 then (3 / 5, 4 / 5) else (0, -1)
  mid := fun v e => (v, e)
  time := 7
  centroidTransmissive := false
  bv := fun _ _ => 0

/-- A stand-in for square root and gravity on the rationals. -/
def samplePar : Par ℚ := ⟨fun x => x, 10⟩

example : ShallowWater sampleDom := ⟨rfl, rfl⟩
example : Unit2 (sampleDom.normal 0 2) ∧ Unit2 (sampleDom.normal 1 0) := by
  unfold Unit2 sampleDom; norm_num

/-- The mesh of the sample: tag `1` on `(0, 2)`, tag `2` on `(1, 0)`. -/
example : sampleDom.Indexes sampleBinder := by
  intro j s hs
  have hseg : sampleBinder.segments = [((0, 2), 1), ((1, 0), 2)] := by decide +kernel
  rw [hseg] at hs
  match j, hs with
  | 0, hs => simp at hs; subst hs; exact ⟨rfl, rfl⟩
  | 1, hs => simp at hs; subst hs; exact ⟨rfl, rfl⟩
  | j + 2, hs => simp at hs

example : tagCells sampleBinder = [(2, [1]), (1, [0])] := by decide +kernel

/-- `C37_update`: a wall on tag 1 and a fixed state on tag 2. -/
example : ∃ d', updateBoundary samplePar
      [(1, some .reflective), (2, some (.dirichlet [5, 6, 7]))] (tagCells sampleBinder) sampleDom =
        .ok d' ∧
    d'.bv .stage 0 = 4 ∧ d'.bv .xmom 0 = 7 / 25 ∧ d'.bv .ymom 0 = -24 / 25 ∧
    d'.bv .stage 1 = 5 ∧ d'.bv .xmom 1 = 6 ∧ d'.bv .ymom 1 = 7 := by
  refine ⟨_, rfl, ?_⟩
  decide +kernel

/-- `C37_order`: the tags visited the other way round. -/
example : ∃ d1 d2, updateBoundary samplePar
      [(1, some .reflective), (2, some (.dirichlet [5, 6, 7]))] (tagCells sampleBinder) sampleDom =
        .ok d1 ∧ updateBoundary samplePar
      [(1, some .reflective), (2, some (.dirichlet [5, 6, 7]))] [(1, [0]), (2, [1])] sampleDom =
        .ok d2 ∧ [(1, [0]), (2, [1])].Perm (tagCells sampleBinder) ∧
      d1.bv .xmom 0 = d2.bv .xmom 0 ∧ d1.bv .stage 1 = d2.bv .stage 1 := by
  refine ⟨_, _, rfl, rfl, ?_, ?_⟩
  · have : tagCells sampleBinder = [(2, [1]), (1, [0])] := by decide +kernel
    rw [this]; exact List.Perm.swap _ _ _
  · decide +kernel

/-- An unbound tag makes `update_boundary` raise. -/
example : updateBoundary samplePar [(1, some .reflective)] (tagCells sampleBinder) sampleDom =
    .error .index := by rfl

/-- `C37_flux_type`. -/
example : (∀ x ∈ sampleBinder.boundary, ∃ c, (sampleHeap 2).get? x.2 = some (some c)) ∧
    (setBoundary (fun c => c == 20) sampleHeap sampleBinder 2).2.2 = none ∧
    (setBoundary (fun c => c == 20) sampleHeap sampleBinder 2).2.1.fluxType = [0, 1] := by
  refine ⟨?_, by decide +kernel, by decide +kernel⟩
  intro x hx
  have : x = ((1, 0), 2) ∨ x = ((0, 2), 1) := by simpa [sampleBinder] using hx
  rcases this with rfl | rfl
  · exact ⟨20, by decide +kernel⟩
  · exact ⟨10, by decide +kernel⟩

/-- `C55_agree` on two edges, with values. -/
example : Sound (K := ℚ) (.nMomentum (fun t => .ok t) none) ∧
    ∃ d1 d2, evaluateSegment samplePar (.nMomentum (fun t => .ok t) none) [0, 1] sampleDom = .ok d1 ∧
      genericSegment samplePar (.nMomentum (fun t => .ok t) none) [0, 1] sampleDom = .ok d2 ∧
      d1.bv .stage 0 = 7 ∧ d1.bv .xmom 0 = 9 / 25 ∧ d2.bv .xmom 0 = 9 / 25 := by
  refine ⟨.nMomentum _ _, _, _, rfl, rfl, ?_⟩
  decide +kernel

/-- `C55_flather_ignores_interior`, `C55_flather_differs`: still water of depth 3 inside, outside
stage 2 above the bed at 1. -/
example : ∃ d : Dom ℚ, ShallowWater d ∧ d.cent .elev (d.cells 0) < 2 ∧
    d.cent .elev (d.cells 0) < d.edge .stage (d.cells 0) (d.edges 0) ∧
    (d.edge .xmom (d.cells 0) (d.edges 0) = 0 ∧ d.edge .ymom (d.cells 0) (d.edges 0) = 0) ∧
    d.edge .stage (d.cells 0) (d.edges 0) ≠ 2 ∧ (∀ x > 0, samplePar.sqrt x ≠ 0) ∧
    0 < samplePar.g :=
  ⟨{ sampleDom with edge := fun q v e => if q = .stage then 2 + v + e else 0 }, ⟨rfl, rfl⟩,
    by decide +kernel, by decide +kernel, by decide +kernel, by decide +kernel,
    fun x hx => ne_of_gt hx, by decide +kernel⟩

/-- `C55_flather_partial`: the bed inside is above the outside stage. -/
example : ∀ i ∈ [0, 1], sampleDom.cent .elev (sampleDom.cells i) <
      sampleDom.edge .stage (sampleDom.cells i) (sampleDom.edges i) ∧
    (0 : ℚ) ≤ sampleDom.cent .elev (sampleDom.cells i) := by decide +kernel

/-- The real square root meets `IsSqrt`. -/
example : IsSqrt Real.sqrt := fun x hx => ⟨Real.sqrt_nonneg x, Real.sq_sqrt hx⟩

/-- `C56_characteristic`: still water at the outside stage stays as it is. -/
example (p : Par ℝ) (hp : p = ⟨Real.sqrt, 9.8⟩) (d : Dom ℝ) (hi : (0 : ℕ) ∈ [0])
    (hd : ∀ v e, d.edge .stage v e = 1 ∧ d.edge .xmom v e = 0 ∧ d.edge .ymom v e = 0 ∧
      d.edge .elev v e = -3) (hn : ∀ v e, d.normal v e = (3 / 5, 4 / 5)) :
    ∃ d1, evaluateSegment p (.characteristic fun _ => .ok 1) [0] d = .ok d1 ∧
      ∃ h u : ℝ, d1.bv .stage 0 = -3 + h ∧ u - 2 * Real.sqrt (9.8 * h) =
        0 - 2 * Real.sqrt (9.8 * 4) ∧ u + 2 * Real.sqrt (9.8 * h) = 2 * Real.sqrt (9.8 * 4) := by
  have hs : IsSqrt p.sqrt := by subst hp; exact fun x hx => ⟨Real.sqrt_nonneg x, Real.sq_sqrt hx⟩
  have hg : 0 < p.g := by subst hp; norm_num
  obtain ⟨d1, h1, -, -, h3⟩ := C56_characteristic p hs hg (fun _ => .ok 1) d [0] 0 hi 1 rfl (by
    rw [hn]; unfold Unit2; norm_num)
  obtain ⟨e1, e2, e3, e4⟩ := hd (d.cells 0) (d.edges 0)
  simp only [hn, e1, e2, e3, e4] at h3
  have hpos : 0 < Real.sqrt (9.8 * 4) := Real.sqrt_pos.2 (by norm_num)
  obtain ⟨h, u, a1, a2, a3, a4, a5, a6⟩ := h3 (by norm_num) (by norm_num) (by
    subst hp; simp only [along]; norm_num)
  subst hp
  refine ⟨d1, h1, h, u, a1, ?_, ?_⟩
  · rw [a5]; norm_num
  · rw [a4]; simp only [along]; norm_num

/-- `C56_n_momentum`, default after the end of the data. -/
example : ∃ d1, evaluateSegment samplePar (.nMomentum (fun _ => .error .tooLate) (some 3)) [1]
      sampleDom = .ok d1 ∧ d1.bv .stage 1 = 3 ∧ d1.bv .xmom 1 = 0 ∧ d1.bv .ymom 1 = 2 := by
  refine ⟨_, rfl, ?_⟩
  decide +kernel

/-- `C56_roll_over`: a series of length 3 read at time 7 is read at time 1. -/
example : rollN (3 : ℚ) 5 7 = some 1 := by decide +kernel

/-- `C56_inflow_total`. -/
example : (sampleBinder.boundary.map Prod.fst).Nodup ∧
    ((sampleBinder.boundary.filter fun s => s.2 == 2).map fun s =>
      (fun v _ => if v = 0 then 2 else 6 : ℕ → ℕ → ℚ) s.1.1 s.1.2).sum ≠ 0 := by decide +kernel

end Verif.Bdry
