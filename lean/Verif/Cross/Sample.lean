import Verif.Cross.Props
import Mathlib.Analysis.Real.Sqrt

/-! # The hypotheses of C81 hold for a unit square cut into two triangles -/

namespace Verif.Cross.Sample

open Verif.Polygon Verif.Cross

theorem far {p U V : Pt ℝ} (α β : ℝ) (hα : α ^ 2 ≤ 1) (hβ : β ^ 2 ≤ 1) (h1 : 1 / 4 ≤ α * (p.x - U.x) + β * (p.y - U.y))
    (h2 : 1 / 4 ≤ α * (p.x - V.x) + β * (p.y - V.y)) : ¬ Near margin p U V := by
  rintro ⟨q, ⟨t, t0, t1, hx, hy⟩, hd⟩
  have h3 : 1 / 4 ≤ α * (p.x - q.x) + β * (p.y - q.y) := by
    rw [hx, hy]
    have k1 := mul_le_mul_of_nonneg_left h1 (by linarith : 0 ≤ 1 - t)
    have k2 := mul_le_mul_of_nonneg_left h2 t0
    linarith
  have h4 : (1 / 4) ^ 2 ≤ (α * (p.x - q.x) + β * (p.y - q.y)) ^ 2 := pow_le_pow_left₀ (by norm_num) h3 2
  have h5 : (α * (p.x - q.x) + β * (p.y - q.y)) ^ 2 ≤ (α ^ 2 + β ^ 2) * ((p.x - q.x) * (p.x - q.x) + (p.y - q.y) * (p.y - q.y)) := by
    nlinarith [sq_nonneg (α * (p.y - q.y) - β * (p.x - q.x))]
  have h6 : (α ^ 2 + β ^ 2) * ((p.x - q.x) * (p.x - q.x) + (p.y - q.y) * (p.y - q.y)) ≤ 2 * (margin * margin) :=
    mul_le_mul (by linarith) hd (by nlinarith [sq_nonneg (p.x - q.x), sq_nonneg (p.y - q.y)]) (by norm_num)
  unfold margin at h6
  norm_num at h4 h6
  linarith

def T1 : Tri ℝ := ⟨⟨0, 0⟩, ⟨1, 0⟩, ⟨1, 1⟩⟩
def T2 : Tri ℝ := ⟨⟨0, 0⟩, ⟨1, 1⟩, ⟨0, 1⟩⟩
noncomputable def A : Pt ℝ := ⟨0, 1 / 2⟩
noncomputable def B : Pt ℝ := ⟨1, 1 / 2⟩
noncomputable def atol : ℝ := 1 / 10 ^ 8

theorem ccw1 : T1.Ccw := by norm_num [Tri.Ccw, T1]
theorem ccw2 : T2.Ccw := by norm_num [Tri.Ccw, T2]

theorem has1 (p : Pt ℝ) : T1.Has p ↔ 0 ≤ p.y ∧ p.x ≤ 1 ∧ p.y ≤ p.x := by
  rw [has_iff ccw1]
  simp only [Tri.sides, T1, List.mem_cons, List.not_mem_nil, or_false, forall_eq_or_imp, forall_eq, ori]
  constructor
  · rintro ⟨h1, h2, h3⟩; exact ⟨by linarith, by linarith, by linarith⟩
  · rintro ⟨h1, h2, h3⟩; exact ⟨by linarith, by linarith, by linarith⟩

theorem has2 (p : Pt ℝ) : T2.Has p ↔ p.x ≤ p.y ∧ p.y ≤ 1 ∧ 0 ≤ p.x := by
  rw [has_iff ccw2]
  simp only [Tri.sides, T2, List.mem_cons, List.not_mem_nil, or_false, forall_eq_or_imp, forall_eq, ori]
  constructor
  · rintro ⟨h1, h2, h3⟩; exact ⟨by linarith, by linarith, by linarith⟩
  · rintro ⟨h1, h2, h3⟩; exact ⟨by linarith, by linarith, by linarith⟩

theorem conform : Conform [T1, T2] := by
  have diag : ∀ p, T1.Has p → T2.Has p → OnSeg p ⟨0, 0⟩ ⟨1, 1⟩ := by
    intro p h1 h2
    rw [has1] at h1
    rw [has2] at h2
    exact ⟨p.x, h2.2.2, h1.2.1, by ring, by simp only; linarith [h1.2.2, h2.1]⟩
  have e1 : T1.Edge ⟨0, 0⟩ ⟨1, 1⟩ := by simp [Tri.Edge, Tri.sides, T1]
  have e2 : T2.Edge ⟨0, 0⟩ ⟨1, 1⟩ := by simp [Tri.Edge, Tri.sides, T2]
  intro i j T T' hij hi hj p q _ h1 h2 h3 h4
  match i, j with
  | 0, 0 => exact absurd rfl hij
  | 1, 1 => exact absurd rfl hij
  | 0, 1 =>
    obtain rfl := Option.some.inj hi
    obtain rfl := Option.some.inj hj
    exact ⟨_, _, e1, e2, diag p h1 h3, diag q h2 h4⟩
  | 1, 0 =>
    obtain rfl := Option.some.inj hi
    obtain rfl := Option.some.inj hj
    exact ⟨_, _, e2, e1, diag p h3 h1, diag q h4 h2⟩
  | i + 2, _ => simp at hi
  | 0, j + 2 => simp at hj
  | 1, j + 2 => simp at hj

theorem covered : Covered [T1, T2] A B := by
  rintro p ⟨t, t0, t1, hx, hy⟩
  simp only [A, B] at hx hy
  rcases le_total (1 / 2) t with h | h
  · exact ⟨T1, by simp, by rw [has1]; exact ⟨by linarith, by linarith, by linarith⟩⟩
  · exact ⟨T2, by simp, by rw [has2]; exact ⟨by linarith, by linarith, by linarith⟩⟩

theorem leaves : Leaves [T1, T2] A B := by
  intro T hT
  rw [List.mem_cons, List.mem_singleton] at hT
  rcases hT with rfl | rfl
  · rintro ⟨h, -⟩
    rw [inner_iff ccw1] at h
    have := h (⟨1, 1⟩, ⟨0, 0⟩) (by simp [Tri.sides, T1])
    norm_num [ori, A] at this
  · rintro ⟨-, h⟩
    rw [inner_iff ccw2] at h
    have := h (⟨0, 0⟩, ⟨1, 1⟩) (by simp [Tri.sides, T2])
    norm_num [ori, B] at this

theorem ready : Ready atol [T1, T2] A B := by
  refine ⟨by simp [A, B], fun T hT => ?_⟩
  rw [List.mem_cons, List.mem_singleton] at hT
  rcases hT with rfl | rfl
  · refine ⟨ccw1, ?_⟩
    simp only [SharpTri, Tri.sides, T1, List.mem_cons, List.not_mem_nil, or_false, forall_eq_or_imp, forall_eq]
    refine ⟨⟨?_, ?_, ?_, ?_, ?_, ?_⟩, ⟨?_, ?_, ?_, ?_, ?_, ?_⟩, ⟨?_, ?_, ?_, ?_, ?_, ?_⟩⟩
    · left; norm_num [turn, A, B]
    · right; norm_num [turn, A, B, atol, abs]
    · right; exact far 0 1 (by norm_num) (by norm_num) (by norm_num [A]) (by norm_num [A])
    · right; exact far 0 1 (by norm_num) (by norm_num) (by norm_num [B]) (by norm_num [B])
    · right; exact far 0 (-1) (by norm_num) (by norm_num) (by norm_num [A]) (by norm_num [B])
    · right; exact far 0 (-1) (by norm_num) (by norm_num) (by norm_num [A]) (by norm_num [B])
    · right; norm_num [turn, A, B, atol]
    · right; norm_num [turn, A, B, atol, abs]
    · right; exact far (-1) 0 (by norm_num) (by norm_num) (by norm_num [A]) (by norm_num [A])
    · left; exact ⟨1 / 2, by norm_num, by norm_num, by norm_num [B], by norm_num [B]⟩
    · right; exact far 0 (-1) (by norm_num) (by norm_num) (by norm_num [A]) (by norm_num [B])
    · right; exact far 0 1 (by norm_num) (by norm_num) (by norm_num [A]) (by norm_num [B])
    · right; norm_num [turn, A, B, atol]
    · right; norm_num [turn, A, B, atol, abs]
    · right; exact far (-1) 1 (by norm_num) (by norm_num) (by norm_num [A]) (by norm_num [A])
    · right; exact far 1 (-1) (by norm_num) (by norm_num) (by norm_num [B]) (by norm_num [B])
    · right; exact far 0 1 (by norm_num) (by norm_num) (by norm_num [A]) (by norm_num [B])
    · right; exact far 0 (-1) (by norm_num) (by norm_num) (by norm_num [A]) (by norm_num [B])
  · refine ⟨ccw2, ?_⟩
    simp only [SharpTri, Tri.sides, T2, List.mem_cons, List.not_mem_nil, or_false, forall_eq_or_imp, forall_eq]
    refine ⟨⟨?_, ?_, ?_, ?_, ?_, ?_⟩, ⟨?_, ?_, ?_, ?_, ?_, ?_⟩, ⟨?_, ?_, ?_, ?_, ?_, ?_⟩⟩
    · right; norm_num [turn, A, B, atol]
    · right; norm_num [turn, A, B, atol, abs]
    · right; exact far (-1) 1 (by norm_num) (by norm_num) (by norm_num [A]) (by norm_num [A])
    · right; exact far 1 (-1) (by norm_num) (by norm_num) (by norm_num [B]) (by norm_num [B])
    · right; exact far 0 (-1) (by norm_num) (by norm_num) (by norm_num [A]) (by norm_num [B])
    · right; exact far 0 1 (by norm_num) (by norm_num) (by norm_num [A]) (by norm_num [B])
    · left; norm_num [turn, A, B]
    · right; norm_num [turn, A, B, atol, abs]
    · right; exact far 0 (-1) (by norm_num) (by norm_num) (by norm_num [A]) (by norm_num [A])
    · right; exact far 0 (-1) (by norm_num) (by norm_num) (by norm_num [B]) (by norm_num [B])
    · right; exact far 0 1 (by norm_num) (by norm_num) (by norm_num [A]) (by norm_num [B])
    · right; exact far 0 1 (by norm_num) (by norm_num) (by norm_num [A]) (by norm_num [B])
    · right; norm_num [turn, A, B, atol]
    · right; norm_num [turn, A, B, atol, abs]
    · left; exact ⟨1 / 2, by norm_num, by norm_num, by norm_num [A], by norm_num [A]⟩
    · right; exact far 1 0 (by norm_num) (by norm_num) (by norm_num [B]) (by norm_num [B])
    · right; exact far 0 1 (by norm_num) (by norm_num) (by norm_num [A]) (by norm_num [B])
    · right; exact far 0 (-1) (by norm_num) (by norm_num) (by norm_num [A]) (by norm_num [B])

theorem isSqrt : IsSqrt Real.sqrt := fun x hx => ⟨Real.sqrt_nonneg x, Real.mul_self_sqrt hx⟩

theorem good : Good atol [T1, T2] [A, B] := ⟨conform, by
  intro e he
  simp only [lines, List.mem_singleton] at he
  subst he
  exact ⟨ready, covered, leaves⟩⟩

/-- The line from the left to the right of the square: momentum `(u, v)` gives the flow `-v`; momentum `(0, x)` gives `-1/2`. -/
example : ∃ ss, segments Real.sqrt 0 atol [T1, T2] [A, B] = some ss ∧ (∀ u v : ℝ, flow (fun _ => (u, v)) ss = -v) ∧ flow (fun p => (0, p.x)) ss = -(1 / 2) := by
  have ha : (0 : ℝ) ≤ atol := by norm_num [atol]
  obtain ⟨ss, hss⟩ := C81_answers isSqrt le_rfl ha good
  refine ⟨ss, hss, fun u v => ?_, ?_⟩
  · rw [C81_uniform isSqrt le_rfl ha good u v hss]
    simp [A, B]
  · rw [C81_polyline isSqrt le_rfl ha good ⟨0, 0, 0, 0, 1, 0, fun p => by simp⟩ hss]
    norm_num [lines, exact, A, B]

example : ∃ ss ss', lineSegments Real.sqrt 0 atol [T1, T2] A B = some ss ∧ lineSegments Real.sqrt 0 atol [T1, T2] B A = some ss' ∧
    flow (fun p => (p.y ^ 2, p.x ^ 3)) ss' = -flow (fun p => (p.y ^ 2, p.x ^ 3)) ss ∧ (ss.map fun u => u.length).sum = 1 := by
  have ha : (0 : ℝ) ≤ atol := by norm_num [atol]
  obtain ⟨ss, h1, -⟩ := C81_segments isSqrt le_rfl ha ready
  obtain ⟨ss', h2, -⟩ := C81_segments isSqrt le_rfl ha (ready_symm ready)
  refine ⟨ss, ss', h1, h2, C81_direction isSqrt le_rfl ha ready h1 h2 _, ?_⟩
  rw [C81_length isSqrt le_rfl ha ready conform covered leaves h1]
  norm_num [A, B]

/-- **C81, a limit of the code.** A line inside one triangle, and one through the same triangle that leaves it: only the first raises an error. -/
theorem C81_inner_part_witness : segments Real.sqrt 0 atol [T1] [⟨3 / 4, 1 / 4⟩, ⟨3 / 4, 3 / 8⟩] = none := by
  have hr : Ready atol [T1] ⟨3 / 4, 1 / 4⟩ ⟨3 / 4, 3 / 8⟩ := by
    refine ⟨by norm_num, fun T hT => ?_⟩
    rw [List.mem_singleton] at hT
    subst hT
    refine ⟨ccw1, ?_⟩
    simp only [SharpTri, Tri.sides, T1, List.mem_cons, List.not_mem_nil, or_false, forall_eq_or_imp, forall_eq]
    refine ⟨⟨?_, ?_, ?_, ?_, ?_, ?_⟩, ⟨?_, ?_, ?_, ?_, ?_, ?_⟩, ⟨?_, ?_, ?_, ?_, ?_, ?_⟩⟩
    · right; norm_num [turn, atol, abs]
    · right; norm_num [turn, atol, abs]
    · right; exact far 0 1 (by norm_num) (by norm_num) (by norm_num) (by norm_num)
    · right; exact far 0 1 (by norm_num) (by norm_num) (by norm_num) (by norm_num)
    · right; exact far (-1) 0 (by norm_num) (by norm_num) (by norm_num) (by norm_num)
    · right; exact far 1 0 (by norm_num) (by norm_num) (by norm_num) (by norm_num)
    · left; norm_num [turn]
    · right; norm_num [turn, atol, abs]
    · right; exact far (-1) 0 (by norm_num) (by norm_num) (by norm_num) (by norm_num)
    · right; exact far (-1) 0 (by norm_num) (by norm_num) (by norm_num) (by norm_num)
    · right; exact far 1 0 (by norm_num) (by norm_num) (by norm_num) (by norm_num)
    · right; exact far 1 0 (by norm_num) (by norm_num) (by norm_num) (by norm_num)
    · right; norm_num [turn, atol, abs]
    · right; norm_num [turn, atol, abs]
    · right; exact far 1 (-1) (by norm_num) (by norm_num) (by norm_num) (by norm_num)
    · right; exact far 1 (-1) (by norm_num) (by norm_num) (by norm_num) (by norm_num)
    · right; exact far 1 0 (by norm_num) (by norm_num) (by norm_num) (by norm_num)
    · right; exact far (-1) 0 (by norm_num) (by norm_num) (by norm_num) (by norm_num)
  refine (C81_inner_part_is_lost isSqrt le_rfl (by norm_num [atol]) hr ?_ ?_).2
  · rw [inner_iff ccw1]
    simp only [Tri.sides, T1, List.mem_cons, List.not_mem_nil, or_false, forall_eq_or_imp, forall_eq]
    norm_num [ori]
  · rw [inner_iff ccw1]
    simp only [Tri.sides, T1, List.mem_cons, List.not_mem_nil, or_false, forall_eq_or_imp, forall_eq]
    norm_num [ori]

/-- Two segments of water at rest. -/
example : energy (98 / 10 : ℝ) 0 0 .total (fun p => ⟨-p.x, 2, 0, 0⟩) [⟨⟨0, 0⟩, ⟨1, 0⟩, (0, -1), 1, 0⟩, ⟨⟨1, 0⟩, ⟨3, 0⟩, (0, -1), 2, 1⟩] = 2 :=
  (C81_rest _ _ _ _ (by simp) (by simp) (fun p => by simp)).1

/-- Different heads at two segments. -/
example : (fun e => 1 ≤ e ∧ e ≤ 3) (energy (98 / 10 : ℝ) 0 0 .total (fun p => ⟨-5, if p.x < 1 then 1 else 3, 0, 0⟩)
    [⟨⟨0, 0⟩, ⟨1, 0⟩, (0, -1), 1, 0⟩, ⟨⟨1, 0⟩, ⟨3, 0⟩, (0, -1), 2, 1⟩]) := by
  refine C81_energy_bounds _ _ _ _ _ (by simp) (by simp) ?_
  intro s hs
  simp only [List.mem_cons, List.not_mem_nil, or_false] at hs
  rcases hs with rfl | rfl <;> norm_num [head, Seg.mid]

/-- Depth 2, velocity (3, 4), g = 10. -/
example : energy (10 : ℝ) 0 0 .specific (fun p => ⟨p.x, p.x + 2, 6, 8⟩) [⟨⟨0, 0⟩, ⟨1, 0⟩, (0, -1), 1, 0⟩] = 2 + 25 / 20 := by
  rw [C81_specific (h := 2) (u := 3) (v := 4) _ (by simp) (by simp) le_rfl (by norm_num) (fun p => by norm_num)]
  norm_num

end Verif.Cross.Sample
