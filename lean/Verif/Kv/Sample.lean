import Verif.Kv.PropsElliptic
import Mathlib.Tactic.FinCases
import Mathlib.Data.Fin.VecNotation

/-!
# Concrete cases for C75 and C76

Two triangles: (0,0), (1,0), (0,1) and (p,p), (0,1), (1,0).
-/

namespace Verif.Kv

open Verif.CG Matrix

/-- The mesh. -/
noncomputable def two (p : ℝ) : Mesh where
  nb := fun i e => if i = 0 then ![1, -1, -2] e else ![0, -3, -4] e
  cen := fun i => if i = 0 then (1 / 3, 1 / 3) else ((1 + p) / 3, (1 + p) / 3)
  mid := fun i e => if i = 0 then ![(1 / 2, 1 / 2), (0, 1 / 2), (1 / 2, 0)] e else ![(1 / 2, 1 / 2), ((p + 1) / 2, p / 2), (p / 2, (p + 1) / 2)] e
  len := fun i e => if i = 0 then ![√2, 1, 1] e else ![√2, √(p ^ 2 + (p - 1) ^ 2), √(p ^ 2 + (p - 1) ^ 2)] e
  area := fun i => if i = 0 then 1 / 2 else (2 * p - 1) / 2

theorem two_conforming {p : ℝ} (hp : 1 ≤ p) : (two p).Conforming 2 := by
  have hl : 0 < √(p ^ 2 + (p - 1) ^ 2) := Real.sqrt_pos.mpr (by nlinarith)
  have h2 : (0 : ℝ) < √2 := Real.sqrt_pos.mpr (by norm_num)
  constructor
  · intro i hi e he
    interval_cases i <;> fin_cases e <;> simp [two] at he
    · exact ⟨1, by omega, by simp [two], by omega, 0, by simp [two], by simp [two]⟩
    · exact ⟨0, by omega, by simp [two], by omega, 0, by simp [two], by simp [two]⟩
  · intro i hi
    interval_cases i
    · intro a b hab
      fin_cases a <;> fin_cases b <;> simp [two] at hab ⊢
    · intro a b hab
      fin_cases a <;> fin_cases b <;> simp [two] at hab ⊢
  · intro i hi e
    interval_cases i <;> fin_cases e <;> simp [two, hl]
  · intro i hi e he
    interval_cases i <;> fin_cases e <;> simp [two, Mesh.other] at he <;> linarith
  · intro i hi
    interval_cases i <;> simp [two]; linarith

theorem two_linked (p : ℝ) (i : Fin 2) : Linked (two p) 2 i := by
  fin_cases i
  · exact .edge 0 1 (by omega) (by simp [two])
  · exact .edge 1 1 (by omega) (by simp [two])

/-- Diffusivity one, or zero in the second triangle. -/
noncomputable def op (p : ℝ) (useAreas : Bool) (d1 : ℝ) : Op 2 := ⟨two p, useAreas, ![1, d1], fun _ => 1⟩

theorem op_even : (op 1 true 1).Even (1 / 2) := Or.inr ⟨rfl, by intro i; fin_cases i <;> simp [op, two]; norm_num⟩

theorem op_even_off (p d1 : ℝ) : (op p false d1).Even 1 := Or.inl ⟨rfl, rfl⟩

theorem op_d (p : ℝ) (b : Bool) (i : Fin 2) : 0 < (op p b 1).d i := by fin_cases i <;> simp [op]

theorem op_dB (p : ℝ) (b : Bool) (d1 : ℝ) (k : ℕ) : 0 ≤ (op p b d1).dB k := zero_le_one

/-- A step with unequal velocities in the two triangles. -/
example : ∃ x, (op 1 true 1).parabolicSolve 1 ![1, 2] (fun _ => 0) = .ok x :=
  C75_answers (two_conforming le_rfl) op_even (op_d 1 true) (op_dB 1 true 1) zero_le_one (by norm_num) _ _

/-- The hypotheses of `C75_no_new_extremes` are met, with a bound of 1 for the tolerances if the start is not far off; here the second
triangle has no diffusivity. -/
example (x : Fin 2 → ℝ) (hx : (op 2 false 0).parabolicSolve (1 / 10 ^ 5) (fun _ => 1) (fun _ => 1) = .ok x) (i : Fin 2) :
    (1 : ℝ) - 1 ≤ x i ∧ x i ≤ 1 + 1 ∧ ((op 2 false 0).d i = 0 → |x i - 1| ≤ 1) := by
  have hdef : defect (op 2 false 0) 1 (1 / 10 ^ 5) (fun _ => 1) (fun _ => 1) (fun _ => 1) = fun _ => 0 := by
    funext i
    unfold defect
    have : inflow (op 2 false 0).mesh (op 2 false 0).d (op 2 false 0).dB (fun _ => 1) (fun _ => 1) i = 0 := by
      unfold inflow
      split_ifs
      · rfl
      · refine Finset.sum_eq_zero fun e _ => ?_
        fin_cases i <;> fin_cases e <;> simp [op, two, value]
    rw [this]
    simp
  refine C75_no_new_extremes (two_conforming one_le_two) (op_even_off 2 0) ?_ (op_dB 2 false 0) (by norm_num) hx zero_le_one ?_ ?_
    (fun _ => ⟨le_rfl, le_rfl⟩) (fun _ => ⟨le_rfl, le_rfl⟩) i
  · intro i; fin_cases i <;> simp [op]
  · norm_num
  · rw [hdef]; norm_num [sq]

example : (op 1 true 1).parabolicSolve 3 (fun _ => 7) (fun _ => 7) = .ok fun _ => 7 := C75_uniform (two_conforming le_rfl) op_even 3 7

/-- With a second triangle of area 3/2 beside one of 1/2 a uniform flow is not a solution. -/
theorem C75_uniform_flow_is_changed : (op 2 true 1).mesh.Conforming 2 ∧
    matrixOf ((op 2 true 1).parabolicMul 1) *ᵥ (fun _ => 1) ≠ fun i => 1 + 1 * (op 2 true 1).boundaryTerm (fun _ => 1) i := by
  refine ⟨two_conforming one_le_two, fun h => ?_⟩
  have := (C75_uniform_iff_equal_areas (two_conforming one_le_two) rfl (op_d 2 true) (op_dB 2 true 1) one_ne_zero one_ne_zero).mp h 0 1 0
    (by simp [op, two])
  simp [op, two] at this
  norm_num at this

/-- A shore. -/
example : (matrixOf ((op 1 false 0).parabolicMul 1))ᵀ ≠ matrixOf ((op 1 false 0).parabolicMul 1) :=
  C75_not_symmetric_at_shore (two_conforming le_rfl) (op_even_off 1 0) (i := 0) (j := 1) (e := 0) (by simp [op, two]) (by simp [op]) (by simp [op]) one_pos

/-- An elliptic equation with a source. -/
example : ∃ x, (op 1 true 1).ellipticSolve (fun _ => 0) (fun k => k) ![1, -1] 100 0 0 = .ok x :=
  C76_answers (two_conforming le_rfl) op_even (op_d 1 true) (op_dB 1 true 1) (two_linked 1) _ _ _ (by norm_num) 0 0

example : ∃! x, ∀ i, inflow (op 1 true 1).mesh (op 1 true 1).d (op 1 true 1).dB x (fun k => k) i / (1 / 2) = ![1, -1] i :=
  C76_unique (two_conforming le_rfl) op_even (op_d 1 true) (op_dB 1 true 1) (two_linked 1) _ _

/-- Settings and a state of uniform flow one metre deep. -/
noncomputable def cfg : Cfg 2 := ⟨two 1, true, none, 0⟩

noncomputable def flow : State 2 := ⟨fun _ => 1, fun _ => 0, fun _ => 1, fun _ => 0, fun _ => 1, fun _ => 0, fun _ => 1, fun _ => 0⟩

/-- One call takes one part in a hundred million of its momentum. -/
example : call cfg 1 0 flow = some (0, { flow with
    uh := fun _ => 1 * ((depth 1 0) ^ 2 / ((depth 1 0) ^ 2 + 1 / 10 ^ 8)), vh := fun _ => 0 * ((depth 1 0) ^ 2 / ((depth 1 0) ^ 2 + 1 / 10 ^ 8)) }) :=
  C75_call_loses_momentum (c := cfg) (s := flow) (cu := velocity 1 (depth 1 0)) (cv := velocity 0 (depth 1 0)) (two_conforming le_rfl) (a := 1 / 2) (Or.inr ⟨rfl, by intro i; fin_cases i <;> simp [Cfg.op, cfg, two]; norm_num⟩) rfl
    (by simp [cfg]) (by intro i; simp [Cfg.op, cfg, flow, depth]) (fun _ => rfl) (fun _ => rfl) (fun _ => rfl) (fun _ => rfl)

end Verif.Kv
