import Verif.ParFile.Model
import Verif.Sww.SpecMerge

/-! Vocabulary for a field of the whole mesh held in pieces (independent of how the files are merged). -/

set_option linter.unusedSectionVars false

namespace Verif.ParFile

open Verif.Par (Local)
open Verif.Mesh (Tri)
open Verif.Sww (Part Stored Whole)

variable {K : Type*}

/-- What the serial run would store under one name: nothing, one array, or one array for each time. `f i` is the value at place `i` of the whole
mesh (triangle, node, or corner `3t+k`). -/
inductive Held (K : Type*)
  | absent
  | static (f : ℕ → K)
  | dynamic (f : ℕ → ℕ → K)

/-- The arrays a file of the whole mesh has. -/
def Held.whole (nsteps len : ℕ) : Held K → Option (Stored K)
  | .absent => none
  | .static f => some (.static ((List.range len).map f))
  | .dynamic f => some (.dynamic ((List.range nsteps).map fun s => (List.range len).map (f s)))

/-- One processor stores the array of length `len` which holds the values `f` at those of its places that matter: `at k i` says that place `k` of
the processor matters and is place `i` of the whole mesh. What it has elsewhere (ghosts) is arbitrary. -/
def Piece (nsteps len : ℕ) (at_ : ℕ → ℕ → Prop) : Held K → Option (Stored K) → Prop
  | .absent, o => o = none
  | .static f, o => ∃ v, o = some (.static v) ∧ v.length = len ∧ ∀ k i, at_ k i → v[k]? = some (f i)
  | .dynamic f, o => ∃ rows, o = some (.dynamic rows) ∧ rows.length = nsteps ∧ (∀ row ∈ rows, row.length = len) ∧
      ∀ s row, rows[s]? = some row → ∀ k i, at_ k i → row[k]? = some (f s i)

/-- Local triangle `k` is an own triangle, number `t` of the whole mesh. -/
def OwnTri (a : Local) (k t : ℕ) : Prop := k < a.nFull ∧ a.triL2g[k]? = some t

/-- Local node `i` is a corner of an own triangle and is node `n` of the whole mesh. -/
def OwnNode (a : Local) (i n : ℕ) : Prop :=
  a.nodes[i]? = some n ∧ ∃ k < a.nFull, ∃ T, a.tris[k]? = some T ∧ (i = T.1 ∨ i = T.2.1 ∨ i = T.2.2)

/-- Place `i` is a corner of an own triangle, the same corner of triangle `t` of the whole mesh. -/
def OwnCorner (a : Local) (i n : ℕ) : Prop := ∃ k t c, c < 3 ∧ OwnTri a k t ∧ i = 3 * k + c ∧ n = 3 * t + c

/-- The mesh has as many `x` as `y`, its triangles use its points, and every point is a corner of some triangle. -/
structure Points (tris : List Tri) (X Y : List K) : Prop where
  same : Y.length = X.length
  range : ∀ T ∈ tris, T.1 < X.length ∧ T.2.1 < X.length ∧ T.2.2 < X.length
  used : ∀ n < X.length, ∃ T ∈ tris, n = T.1 ∨ n = T.2.1 ∨ n = T.2.2

/-- The whole mesh. -/
def whole (tris : List Tri) (X Y : List K) : Whole K := ⟨tris.map asFn, X, Y⟩

end Verif.ParFile
