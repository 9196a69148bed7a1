import Verif.Sww.ModelRead

/-! Statements about merged separate files and about files read back, written without the functions that do the merging and reading. -/

namespace Verif.Sww

variable {K : Type*} [Field K] [LinearOrder K] [IsStrictOrderedRing K]

/-- What a file says about one corner of a triangle: its place, the elevation and the history of every dynamic quantity. -/
structure Corner (K : Type*) where
  x : Option K
  y : Option K
  elevation : Option K
  dyn : Fin 3 → ℕ → Option K

/-- The corner with a given number as one reads it in a file. -/
def Sheet.corner (s : Sheet K) (p : ℕ) : Corner K where
  x := s.x[p]?
  y := s.y[p]?
  elevation := s.elevation[p]?
  dyn q i := (s.dyn q)[i]?.bind (·[p]?)

/-- The triangles of a file, each as its three corners. -/
def Sheet.triangles (s : Sheet K) : List (Fin 3 → Corner K) := s.volumes.map fun v k => s.corner (v k)

/-- A file whose arrays fit together: as many values as points, triangles that refer to points, a slice per time. -/
structure Sheet.Fits (s : Sheet K) : Prop where
  y : s.y.length = s.x.length
  elevation : s.elevation.length = s.x.length
  slices : ∀ q, (s.dyn q).length = s.times.length
  rows : ∀ q, ∀ row ∈ s.dyn q, row.length = s.x.length
  volumes : ∀ v ∈ s.volumes, ∀ k, v k < s.x.length

/-- `q` is what lies between two moments: a weight for the later one and the entries in that proportion. -/
def Between (a b : List K) (r : K) (q : List K) : Prop :=
  q.length = min a.length b.length ∧ ∀ (n : ℕ) (u v : K), a[n]? = some u → b[n]? = some v → q[n]? = some (u + r * (v - u))

end Verif.Sww
