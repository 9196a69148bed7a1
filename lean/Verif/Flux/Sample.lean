import Verif.Flux.Spec

/-!
# A small domain used to show that the hypotheses of the flux theorems can be met
-/

namespace Verif.Flux

/-- Newton steps for the square root; good enough for examples. -/
def sqrtQ (x : ℚ) : ℚ := if x ≤ 0 then 0 else (fun y => (y + x / y) / 2) ((x + 1) / 2)

def sampleC : Consts ℚ := { g := 98 / 10, eps := 1 / 10 ^ 12, lowFroude := 1, sqrt := sqrtQ, pow385 := fun x => x }

/-- Three edge values per triangle from six numbers. -/
def six {α : Type} (a : Fin 2 → Fin 3 → α) (e : Edge 2) : α := a e.1 e.2

def sampleNormal : Edge 2 → ℚ × ℚ := six ![![(4 / 5, 3 / 5), (-1, 0), (0, -1)], ![(-4 / 5, -3 / 5), (1, 0), (0, 1)]]

def sampleQ : Edge 2 → Q3 ℚ :=
  six ![![⟨2, 1, 1 / 2⟩, ⟨2, 1, 1 / 3⟩, ⟨2, 1, 1 / 4⟩], ![⟨1, -1, 1⟩, ⟨1, 0, 1⟩, ⟨1, 1, 1⟩]]

/-- A 3 by 4 rectangle cut along a diagonal of length 5, with moving water, a river wall along the diagonal and reflective
outer edges. -/
def sampleF (f : Fin 2 → Bool) : Dom 2 ℚ :=
  { nbr := fun e => if e.2 = 0 then some (if e.1 = 0 then 1 else 0, 0) else none
    bval := fun e => reflect (sampleQ e) (sampleNormal e).1 (sampleNormal e).2
    qE := sampleQ
    bedE := six ![![1 / 2, 0, 0], ![1 / 4, 0, 1 / 4]]
    heightE := six ![![3 / 2, 2, 2], ![3 / 4, 1, 3 / 4]]
    stageC := ![2, 1]
    bedC := ![0, 0]
    heightC := ![2, 1]
    normal := sampleNormal
    len := six ![![5, 4, 3], ![5, 4, 3]]
    area := fun _ => 6
    radius := fun _ => 1
    full := f
    wall := fun e => e.2 = 0
    wallElev := fun _ => 1 / 2
    wallProps := fun _ => ⟨1, 9 / 10, 95 / 100, 1, 3 / 2⟩
    update := fun _ => true
    allowIncrease := true }

def sampleD : Dom 2 ℚ := sampleF (fun _ => true)

def sampleS : FSt 2 ℚ :=
  { mark := fun _ => 0, work := fun _ => ⟨0, 0, 0⟩, pg := fun _ => 0, edgeTs := fun _ => 0, localTs := 0,
    maxSpeed := fun _ => 0, wallCount := 0 }

instance (x : EdgeIn ℚ) : Decidable (HeadsOk x) :=
  match h : x.wall with
  | none => isTrue (by unfold HeadsOk; rw [h]; trivial)
  | some (a, p) => decidable_of_iff (max (x.wcl - zHalf x) 0 = max (x.wcr - zHalf x) 0 →
      max (x.wcl - zHalf x) 0 = 0 ∨ (1 / 10 ^ 100 ≤ max (x.wcl - zHalf x) 0 ∧ p.s2 ≤ 1)) (by unfold HeadsOk; rw [h])

theorem sampleF_conforming (f : Fin 2 → Bool) : Conforming (sampleF f) where
  symm := by
    have h : ∀ e m : Edge 2, (if e.2 = 0 then some (if e.1 = 0 then (1 : Fin 2) else 0, (0 : Fin 3)) else none) = some m →
        (if m.2 = 0 then some (if m.1 = 0 then (1 : Fin 2) else 0, (0 : Fin 3)) else none) = some e ∧ m ≠ e := by decide
    exact h
  normal := by
    have h : ∀ e m : Edge 2, (if e.2 = 0 then some (if e.1 = 0 then (1 : Fin 2) else 0, (0 : Fin 3)) else none) = some m →
        sampleNormal m = (-(sampleNormal e).1, -(sampleNormal e).2) := by decide +kernel
    exact h
  len := by
    have h : ∀ e m : Edge 2, (if e.2 = 0 then some (if e.1 = 0 then (1 : Fin 2) else 0, (0 : Fin 3)) else none) = some m →
        six ![![(5 : ℚ), 4, 3], ![5, 4, 3]] m = six ![![5, 4, 3], ![5, 4, 3]] e := by decide +kernel
    exact h
  wall := by
    have h : ∀ e m : Edge 2, (if e.2 = 0 then some (if e.1 = 0 then (1 : Fin 2) else 0, (0 : Fin 3)) else none) = some m →
        decide (m.2 = 0) = decide (e.2 = 0) := by decide
    exact h
  wallElev := fun _ _ _ _ => rfl
  wallProps := fun _ _ _ _ => rfl

theorem sampleD_conforming : Conforming sampleD := sampleF_conforming _

theorem sampleD_heads : ∀ e, HeadsOk (edgeIn sampleD e (wallRank sampleD e - 1)) := by decide +kernel

end Verif.Flux
