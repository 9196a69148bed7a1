import Verif.Extrap.Spec
import Verif.Flux.Sample

/-!
# Two small meshes used to show that hypotheses can be met and cannot be dropped
-/

namespace Verif.Extrap

open Verif.Flux

/-- Three edge values for each of four triangles. -/
def twelve {α : Type} (a : Fin 4 → Fin 3 → α) (e : Edge 4) : α := a e.1 e.2

/-- A 6 by 8 rectangle cut by both diagonals: right, top, left, bottom triangle. Edge 0 is the outer edge. -/
def starNbr : Edge 4 → Option (Edge 4) :=
  twelve ![![none, some (1, 2), some (3, 1)], ![none, some (2, 2), some (0, 1)], ![none, some (3, 2), some (1, 1)],
    ![none, some (0, 2), some (2, 1)]]

def starG : Geo 4 ℚ :=
  { nbr := starNbr
    cx := ![2, 0, -2, 0]
    cy := ![0, 8 / 3, 0, -8 / 3]
    ex := twelve ![![3, 3 / 2, 3 / 2], ![0, -3 / 2, 3 / 2], ![-3, -3 / 2, -3 / 2], ![0, 3 / 2, -3 / 2]]
    ey := twelve ![![0, 2, -2], ![4, 2, 2], ![0, -2, 2], ![-4, -2, -2]] }

def starNormal : Edge 4 → ℚ × ℚ :=
  twelve ![![(1, 0), (-4 / 5, 3 / 5), (-4 / 5, -3 / 5)], ![(0, 1), (-4 / 5, -3 / 5), (4 / 5, -3 / 5)],
    ![(-1, 0), (4 / 5, -3 / 5), (4 / 5, 3 / 5)], ![(0, -1), (4 / 5, 3 / 5), (-4 / 5, 3 / 5)]]

/-- A river wall along the edge between the right and the top triangle. -/
def starBase : Dom 4 ℚ :=
  { nbr := starNbr
    bval := fun _ => ⟨0, 0, 0⟩
    qE := fun _ => ⟨0, 0, 0⟩
    bedE := fun _ => 0
    heightE := fun _ => 0
    stageC := fun _ => 0
    bedC := fun _ => 0
    heightC := fun _ => 0
    normal := starNormal
    len := twelve ![![8, 5, 5], ![6, 5, 5], ![8, 5, 5], ![6, 5, 5]]
    area := fun _ => 12
    radius := fun _ => 1
    full := fun _ => true
    wall := fun e => decide (e = (0, 1) ∨ e = (1, 2))
    wallElev := fun _ => 3 / 4
    wallProps := fun _ => ⟨1, 9 / 10, 95 / 100, 1, 3 / 2⟩
    update := fun _ => true
    allowIncrease := true }

/-- Parameters of the scheme DE0, with velocities extrapolated. -/
def starP : Params ℚ :=
  { betaW := 1 / 2, betaWDry := 0, betaUh := 1 / 2, betaUhDry := 0, betaVh := 1 / 2, betaVhDry := 0, minH := 1 / 10 ^ 5,
    vel := true }

/-- Lake with level 1 over a bed with an island in the left triangle. -/
def starLake : Cent 4 ℚ :=
  { stage := ![1, 1, 3 / 2, 1], bed := ![0, 1 / 2, 3 / 2, 1 / 4], xm := fun _ => 0, ym := fun _ => 0, h0 := ![1, 1 / 2, 0, 3 / 4] }

def starBv : Edge 4 → Q3 ℚ := fun e => ⟨![1, 1, 3 / 2, 1] e.1, 0, 0⟩

/-- The 3 by 4 rectangle cut along one diagonal: both triangles are corners. Vertices (0,0), (3,0), (0,4), (3,4). -/
def cutG : Geo 2 ℚ :=
  { nbr := fun e => if e.2 = 0 then some (if e.1 = 0 then 1 else 0, 0) else none
    cx := ![1, 2]
    cy := ![4 / 3, 8 / 3]
    ex := six ![![3 / 2, 0, 3 / 2], ![3 / 2, 3, 3 / 2]]
    ey := six ![![2, 2, 0], ![2, 2, 4]] }

end Verif.Extrap
