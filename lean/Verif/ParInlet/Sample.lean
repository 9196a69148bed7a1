import Verif.ParInlet.PropsRegion
import Mathlib.Tactic.IntervalCases
import Mathlib.Tactic.FinCases

/-! # C96: an inlet of three triangles on two processors -/

namespace Verif.ParInlet

open Verif.Ops

/-- Three triangles on one processor: stages 1, 3 and 2 over a flat bed, areas 1, 2 and 1. -/
def whole : Dom ℚ 3 := ⟨![1, 2, 1], fun _ => true, fun _ => 0, fun _ => 0⟩

/-- Their state. -/
def wholeState : State ℚ 3 := ⟨![1, 3, 2], fun _ => 0, fun _ => 0, fun _ => 1, fun _ => 0, 0, 0⟩

/-- An inlet over all three with discharge 2. -/
def wholeOp : InletOp ℚ 3 := ⟨[0, 1, 2], fun _ => .val 2, none, none, false, 0, 0, 0⟩

/-- Processor 0 has three triangles, one of them a ghost, processor 1 one. -/
def sizes : ℕ → ℕ
  | 0 => 3
  | 1 => 1
  | _ => 0

/-- What they stand for. -/
def place : (p : ℕ) → Fin (sizes p) → Fin 3
  | 0, i => i
  | 1, _ => 2
  | _ + 2, i => i.elim0

/-- Domains of the processors. -/
def parts : Doms ℚ sizes := fun p =>
  ⟨fun i => whole.area (place p i), fun i => decide (p = 1 ∨ i.val < 2), fun _ => 0, fun _ => 0⟩

/-- States of the processors. -/
def partStates : States ℚ sizes := fun p =>
  ⟨fun i => wholeState.stage (place p i), fun i => wholeState.elev (place p i), fun _ => 0, fun i => wholeState.xmom (place p i),
    fun i => wholeState.ymom (place p i), 0, 0⟩

/-- Triangles of the inlet held by each. -/
def partTri : (p : ℕ) → Inlet (sizes p)
  | 0 => [(0 : Fin 3), (1 : Fin 3)]
  | 1 => [(0 : Fin 1)]
  | _ + 2 => []

/-- Operators of the processors. -/
def partOps : InletOps ℚ sizes := fun p => ⟨partTri p, wholeOp.q, none, none, false, 0, 0, 0⟩

/-- A way to sort. -/
def sorter : Argsort ℚ := fun _ f => Tuple.sort f

theorem sorter_good : GoodSort sorter := fun _ f _ _ h => Tuple.monotone_sort f h

theorem sample_listed : Listed partOps [1, 0] := by
  refine ⟨by decide, fun p hp => ?_⟩
  simp only [List.mem_cons, List.not_mem_nil, or_false] at hp
  rcases hp with rfl | rfl <;> (show (partTri _).Nodup; decide)

theorem sample_shared : Shared whole wholeOp.tri parts partOps [1, 0] place := by
  refine ⟨fun p hp i hi => ?_, fun g hg => ?_, fun p hp q hq i hi j hj h => ?_, fun _ _ _ _ => rfl⟩
  · exact (by decide : ∀ g : Fin 3, g ∈ wholeOp.tri) _
  · fin_cases g
    · exact ⟨0, by simp, (0 : Fin 3), by show (0 : Fin 3) ∈ ([0, 1] : List (Fin 3)); decide, rfl⟩
    · exact ⟨0, by simp, (1 : Fin 3), by show (1 : Fin 3) ∈ ([0, 1] : List (Fin 3)); decide, rfl⟩
    · exact ⟨1, by simp, (0 : Fin 1), by show (0 : Fin 1) ∈ ([0] : List (Fin 1)); decide, rfl⟩
  · simp only [List.mem_cons, List.not_mem_nil, or_false] at hp hq
    rcases hp with rfl | rfl <;> rcases hq with rfl | rfl
    · exact ⟨rfl, by revert i j; decide⟩
    · exfalso
      revert i j
      decide
    · exfalso
      revert i j
      decide
    · exact ⟨rfl, by change (i : Fin 3) = j at h; rw [h]⟩

theorem sample_flow : SameFlow wholeState partStates partOps [1, 0] place := fun _ _ _ _ => ⟨rfl, rfl, rfl, rfl⟩

theorem sample_args : SameArgs wholeOp partOps [1, 0] := fun _ _ => ⟨rfl, rfl, rfl, rfl⟩

theorem sample_below : Below 100 partStates partOps [1, 0] := by
  intro p _ i _
  exact (by decide +kernel : ∀ g : Fin 3, wholeState.stage g < 100) _

theorem whole_pos : ∀ i, 0 < whole.area i := by decide +kernel

theorem sample_water : sharedWater parts partStates partOps [1, 0] = 9 := by decide +kernel

/-- The hypotheses of `C96_level`, `C96_same`, `C96_fails` and `C96_books` are met. -/
example : (1 : ℕ) ∈ [1, 0] ∧ Listed partOps [1, 0] ∧ Nonempty partOps [1, 0] ∧ (∀ p i, 0 < (parts p).area i) ∧
    Shared whole wholeOp.tri parts partOps [1, 0] place ∧ SameArgs wholeOp partOps [1, 0] ∧
    SameFlow wholeState partStates partOps [1, 0] place ∧ Below 100 partStates partOps [1, 0] ∧ wholeOp.tri.Nodup ∧
    wantedQ wholeOp 0 = some 2 :=
  ⟨by simp, sample_listed, ⟨0, by simp, by show partTri 0 ≠ []; decide⟩, fun p i => whole_pos _, sample_shared, sample_args, sample_flow,
    sample_below, by decide, rfl⟩

/-- **C96.** The volume integral of a run is not the water that inlets added: one step of one second with discharge 2 into an inlet held
by two processors adds 2 to the water and 4 to the integral reported. -/
theorem C96_counted_again : ∃ (ops' : InletOps ℚ sizes) (s' : States ℚ sizes),
    call sorter 100 parts partOps partStates 1 [1, 0] 0 1 = .ok (ops', s') ∧
      sharedWater parts s' partOps [1, 0] = sharedWater parts partStates partOps [1, 0] + 2 ∧
      volumeIntegral 2 s' = volumeIntegral 2 partStates + 4 := by
  cases hc : call sorter 100 parts partOps partStates 1 [1, 0] 0 1 with
  | error e =>
    have := (C96_fails sorter sorter sorter_good sorter_good 100 whole whole_pos parts (fun p i => whole_pos _) wholeOp
      (by decide) (by decide) partOps 1 [1, 0] (by simp) sample_listed place sample_shared sample_args wholeState partStates sample_flow
      sample_below 0 1 one_ne_zero).2.1 ⟨e, hc⟩
    rw [sample_water] at this
    rcases this with h | h | h
    · exact absurd h (by norm_num)
    · exact absurd h (by simp [wantedQ, wholeOp])
    · exact absurd h (by simp [wantedQ, wholeOp])
  | ok r =>
    obtain ⟨b1, -, b3⟩ := C96_books sorter sorter sorter_good sorter_good 100 whole whole_pos parts (fun p i => whole_pos _) wholeOp
      (by decide) (by decide) partOps 1 [1, 0] (by simp) sample_listed place sample_shared sample_args wholeState partStates sample_flow
      sample_below 0 1 one_ne_zero r.1 r.2 hc 2 (by decide) 2 2 rfl rfl
    refine ⟨r.1, r.2, rfl, ?_, ?_⟩
    · rw [b1, sample_water]
      norm_num
    · rw [b3, sample_water]
      norm_num

/-- The level filling itself, with the orders written out: level 5/2 reached by raising triangle 0 and the one on processor 1. -/
def sampleGathered : Gathered ℚ where
  len p := (partTri p).length
  area p j := (parts p).area (partTri p)[j]
  stage p j := (partStates p).stage (partTri p)[j]
  order _ := Equiv.refl _

example : (merge sampleGathered 100 1 [1, 0] 2).map (fun r => (r.1 0, r.1 1, r.2)) = .ok (1, 1, 5 / 2) := by decide +kernel

example : (merge sampleGathered 100 0 [0, 1] 7).map (fun r => (r.1 0, r.1 1, r.2)) = .ok (2, 1, 4) := by decide +kernel

example : allocate 0 [0, 1, 2] (fun p => answer ([2, 3, 0].getD p 0) false) false = .ok ⟨[0, 1], 3, 1, -1⟩ := by decide +kernel

example : allocate 0 [0, 1, 2] (fun p => answer ([2, 3, 0].getD p 0) (p == 2)) true = .ok ⟨[0, 1, 2], 3, 1, 2⟩ := by decide +kernel

/-- A square of two triangles. -/
def square2 : Region.Dom ℚ :=
  ⟨[⟨⟨0, 0⟩, ⟨3, 0⟩, ⟨0, 3⟩⟩, ⟨⟨3, 3⟩, ⟨0, 3⟩, ⟨3, 0⟩⟩], [⟨1, 1⟩, ⟨2, 2⟩], [true, true], false⟩

/-- Processor 0 holds the first, processor 1 the second; each has a ghost of the other. -/
def squarePart : ℕ → Region.Dom ℚ
  | 0 => ⟨square2.tris, square2.centroids, [true, false], true⟩
  | _ => ⟨square2.tris.reverse, square2.centroids.reverse, [true, false], true⟩

/-- Places of the square. -/
def squareHome (p k : ℕ) : ℕ := if p = 0 then k else 1 - k

/-- The hypotheses of `C96_region` are met by a circle around the second triangle's centroid. -/
example : ∃ (r0 : Region.Reg) (r : ℕ → Region.Reg), Region.make id square2 (Shape.circle ⟨2, 2⟩ (1 : ℚ)).args = .ok r0 ∧
    (∀ p ∈ [0, 1], Region.make id (squarePart p) (Shape.circle ⟨2, 2⟩ (1 : ℚ)).args = .ok (r p)) ∧ r0.fullIndices = [1] ∧
    (r 0).fullIndices = [] ∧ (r 1).fullIndices = [0] := by
  refine ⟨⟨some [1], [1], .circle⟩, fun p => if p = 0 then ⟨some [1], [], .circle⟩ else ⟨some [0], [0], .circle⟩, ?_, ?_, rfl, rfl, rfl⟩
  · show Region.finish square2 .circle (Region.setupCircle square2 ⟨2, 2⟩ 1) = _
    rw [show Region.setupCircle square2 ⟨2, 2⟩ 1 = .ok [1] by decide +kernel]
    rfl
  intro p hp
  simp only [List.mem_cons, List.not_mem_nil, or_false] at hp
  rcases hp with rfl | rfl
  · show Region.finish (squarePart 0) .circle (Region.setupCircle (squarePart 0) ⟨2, 2⟩ 1) = _
    rw [show Region.setupCircle (squarePart 0) ⟨2, 2⟩ 1 = .ok [1] by decide +kernel]
    rfl
  · show Region.finish (squarePart 1) .circle (Region.setupCircle (squarePart 1) ⟨2, 2⟩ 1) = _
    rw [show Region.setupCircle (squarePart 1) ⟨2, 2⟩ 1 = .ok [0] by decide +kernel]
    rfl

example : (∀ p ∈ [0, 1], PartOf (squarePart p) square2 (squareHome p)) ∧
    ∀ g < square2.tris.length, ∃! pk : ℕ × ℕ, pk.1 ∈ [0, 1] ∧ (squarePart pk.1).full[pk.2]? = some true ∧ squareHome pk.1 pk.2 = g := by
  constructor
  · intro p hp k hk
    simp only [List.mem_cons, List.not_mem_nil, or_false] at hp
    rcases hp with rfl | rfl
    · exact ⟨hk, rfl, rfl⟩
    · have hk2 : k < 2 := hk
      interval_cases k
      · exact ⟨by decide, rfl, rfl⟩
      · exact ⟨by decide, rfl, rfl⟩
  · have hk0 : ∀ q k : ℕ, (squarePart q).full[k]? = some true → k = 0 := by
      intro q k h
      have hl : (squarePart q).full = [true, false] := by unfold squarePart; split <;> rfl
      rw [hl] at h
      match k, h with
      | 0, _ => rfl
      | 1, h => simp at h
      | _ + 2, h => simp at h
    intro g hg
    have hg2 : g < 2 := hg
    interval_cases g
    · refine ⟨(0, 0), ⟨by simp, rfl, rfl⟩, ?_⟩
      rintro ⟨q, k⟩ ⟨h1, h2, h3⟩
      obtain rfl := hk0 q k h2
      simp only [List.mem_cons, List.not_mem_nil, or_false] at h1
      rcases h1 with rfl | rfl
      · rfl
      · simp [squareHome] at h3
    · refine ⟨(1, 0), ⟨by simp, rfl, rfl⟩, ?_⟩
      rintro ⟨q, k⟩ ⟨h1, h2, h3⟩
      obtain rfl := hk0 q k h2
      simp only [List.mem_cons, List.not_mem_nil, or_false] at h1
      rcases h1 with rfl | rfl
      · simp [squareHome] at h3
      · rfl

end Verif.ParInlet
