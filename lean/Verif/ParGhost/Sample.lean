import Verif.ParGhost.PropsRace

/-! # Two processors with one number each -/

namespace Verif.ParGhost

/-- Both send their number; the next number is the own one and ten times that of the neighbour. The smallest number is agreed on. -/
def two (coll : ℕ → Bool) : Sys ℤ ℤ ℤ where
  m := 2
  sends p := if p = 0 then [1] else [0]
  recvs p := if p = 0 then [1] else [0]
  out _ x _ := x
  next _ x vs := x + 10 * vs.sum
  give _ x := x
  absorb _ x ts := x + ts.foldl min 0
  coll := coll
  waitSends := false

theorem two_pair (coll : ℕ → Bool) : Pair (two coll) := ⟨rfl, rfl, rfl, rfl, rfl⟩

def before : ℕ → ℤ := fun p => if p = 0 then 1 else 2

/-- Euler's method and ten steps: the hypotheses of `C109_evolve` hold. -/
example : Fits (two (between (evolve ⟨.euler, 2, false, false⟩ 10))) ∧ Settings.Single ⟨.euler, 2, false, false⟩ ∧
    exchanges (evolve ⟨.euler, 2, false, false⟩ 10) = 11 :=
  ⟨(two_pair _).fits, by simp [Settings.Single], by decide +kernel⟩

/-- Numbers after one and after two exchanges in step. -/
example : (together (two fun _ => true) before 1 0, together (two fun _ => true) before 1 1) = (21, 12) ∧
    (together (two fun _ => true) before 2 0, together (two fun _ => true) before 2 1) = (141, 222) := by decide +kernel

/-- Complete executions exist. -/
example : ∃ t s, Exec (two fun _ => true) 2 t (start before (fun _ _ => 0) (fun _ _ => 0) fun _ _ => 0) s ∧
    Done (two fun _ => true) 2 s ∧ s.mem 0 = 141 ∧ s.mem 1 = 222 := by
  obtain ⟨t, s, -, he, hd⟩ := C109_completes (two fun _ => true) (two_pair _).fits 2 before (fun _ _ => 0) (fun _ _ => 0) (fun _ _ => 0) 0 _
    (.refl _)
  refine ⟨t, s, he, hd, ?_, ?_⟩
  · rw [C109_result _ (two_pair _).fits 2 (Or.inr fun _ _ => rfl) before _ _ _ t s he hd 0 (by decide)]
    decide +kernel
  · rw [C109_result _ (two_pair _).fits 2 (Or.inr fun _ _ => rfl) before _ _ _ t s he hd 1 (by decide)]
    decide +kernel

/-- **C109.** The method of second order: after two exchanges of the first step a processor may have a number which it does not have when
all go together. -/
theorem C109_rk2 : ∃ t s, Exec (two (between (evolve ⟨.rk2, 2, false, false⟩ 1))) 3 t
      (start before (fun _ _ => 0) (fun _ _ => 0) fun _ _ => 0) s ∧ s.round 1 = 2 ∧ s.waiting 1 = false ∧
      s.mem 1 = 1422 ∧ together (two (between (evolve ⟨.rk2, 2, false, false⟩ 1))) before 2 1 = 222 := by
  obtain ⟨t, s, he, h1, h2, h3, h4⟩ := C109_race (two (between (evolve ⟨.rk2, 2, false, false⟩ 1))) (two_pair _) rfl 3 1 (by decide)
    (by decide +kernel) before (fun _ _ => 0) (fun _ _ => 0) fun _ _ => 0
  refine ⟨t, s, he, h1, h2, ?_, by decide +kernel⟩
  rw [h3]
  decide +kernel

end Verif.ParGhost
