import Verif.Sww.ModelMerge

/-! What it means that files hold a mesh and its data in pieces, and that an array is put together
rightly. -/

set_option linter.unusedSectionVars false

namespace Verif.Sww

variable {K : Type*} [Field K] [LinearOrder K] [IsStrictOrderedRing K]

/-- The whole mesh: triangles as triples of node numbers, and coordinates of the nodes. -/
structure Whole (K : Type*) where
  tris : List (Fin 3 → ℕ)
  X : List K
  Y : List K

/-- Triangle `t` of the whole mesh is the file's own triangle `i`. -/
def Own (p : Part K) (i t : ℕ) : Prop := p.full[i]? = some 1 ∧ p.triL2g[i]? = some t

/-- Node `n` of the whole mesh is a corner of one of the file's own triangles. -/
def Touch (p : Part K) (n : ℕ) : Prop :=
  ∃ (i : ℕ) (v : Fin 3 → ℕ) (k : Fin 3), p.full[i]? = some 1 ∧ p.volumes[i]? = some v ∧ p.nodeL2g[v k]? = some n

/-- The files are the pieces of the mesh: every triangle is owned exactly once. -/
structure Pieces (G : Whole K) (parts : List (Part K)) : Prop where
  same : G.Y.length = G.X.length
  nTri : ∀ p ∈ parts, p.nTri = G.tris.length
  nNode : ∀ p ∈ parts, p.nNode = G.X.length
  full : ∀ p ∈ parts, p.full.length = p.volumes.length
  l2g : ∀ p ∈ parts, p.triL2g.length = p.volumes.length
  flags : ∀ p ∈ parts, ∀ b ∈ p.full, b = 0 ∨ b = 1
  range : ∀ p ∈ parts, ∀ t ∈ p.triL2g, t < G.tris.length
  owned : ∀ t < G.tris.length, ∃ p ∈ parts, ∃ i, Own p i t
  once : ∀ p ∈ parts, ∀ q ∈ parts, ∀ i j t, Own p i t → Own q j t → p = q ∧ i = j

/-- The files hold one value per node (smooth format), and their triangles and points are those of the mesh. -/
structure SmoothFiles (G : Whole K) (parts : List (Part K)) : Prop where
  nodup : ∀ p ∈ parts, p.nodeL2g.Nodup
  range : ∀ p ∈ parts, ∀ n ∈ p.nodeL2g, n < G.X.length
  copy : ∀ p ∈ parts, ∀ (i t : ℕ) (v : Fin 3 → ℕ), p.triL2g[i]? = some t → p.volumes[i]? = some v →
    ∃ T : Fin 3 → ℕ, G.tris[t]? = some T ∧ ∀ k, p.nodeL2g[v k]? = some (T k)
  xs : ∀ p ∈ parts, p.x.length = p.nodeL2g.length ∧ ∀ i n : ℕ, p.nodeL2g[i]? = some n → p.x[i]? = G.X[n]?
  ys : ∀ p ∈ parts, p.y.length = p.nodeL2g.length ∧ ∀ i n : ℕ, p.nodeL2g[i]? = some n → p.y[i]? = G.Y[n]?
  used : ∀ n < G.X.length, ∃ (t : ℕ) (T : Fin 3 → ℕ) (k : Fin 3), G.tris[t]? = some T ∧ T k = n

/-- The files hold one value per corner of each triangle (non-smooth format). -/
structure PlainFiles (G : Whole K) (parts : List (Part K)) : Prop where
  nodes : ∀ T ∈ G.tris, ∀ k, T k < G.X.length
  xs : ∀ p ∈ parts, p.x.length = 3 * p.volumes.length ∧ ∀ (i t : ℕ) (T : Fin 3 → ℕ) (k : Fin 3), p.triL2g[i]? = some t →
    G.tris[t]? = some T → p.x[3 * i + k]? = G.X[T k]?
  ys : ∀ p ∈ parts, p.y.length = 3 * p.volumes.length ∧ ∀ (i t : ℕ) (T : Fin 3 → ℕ) (k : Fin 3), p.triL2g[i]? = some t →
    G.tris[t]? = some T → p.y[3 * i + k]? = G.Y[T k]?

/-- An array over all triangles put together from one array per file: every entry is the owner's. -/
def TriRight (G : Whole K) (parts : List (Part K)) (val : Part K → List K) (out : List K) : Prop :=
  out.length = G.tris.length ∧ ∀ p ∈ parts, ∀ i t, Own p i t → out[t]? = (val p)[i]?

/-- The same for three values per triangle. -/
def CornerRight (G : Whole K) (parts : List (Part K)) (val : Part K → List K) (out : List K) : Prop :=
  out.length = 3 * G.tris.length ∧
    ∀ p ∈ parts, ∀ (i t : ℕ) (k : Fin 3), Own p i t → out[3 * t + k]? = (val p)[3 * i + k]?

/-- An array over all nodes: every entry is the one of the last file owning a triangle at the node. -/
def NodeRight (G : Whole K) (parts : List (Part K)) (val : Part K → List K) (out : List K) : Prop :=
  out.length = G.X.length ∧ ∀ n < G.X.length, ∃ A p B, parts = A ++ p :: B ∧ Touch p n ∧ (∀ q ∈ B, ¬ Touch q n) ∧
    ∃ i : ℕ, p.nodeL2g[i]? = some n ∧ out[n]? = (val p)[i]?

/-- In all files a quantity is absent, or static, or given at all `nsteps` times, with arrays as long as they should be. -/
def Uniform (sel : Part K → String → Option (Stored K)) (len : Part K → ℕ) (nsteps : ℕ) (parts : List (Part K)) : Prop :=
  ∀ n, (∀ p ∈ parts, sel p n = none) ∨
    (∃ val : Part K → List K, ∀ p ∈ parts, sel p n = some (.static (val p)) ∧ (val p).length = len p) ∨
    ∃ val : Part K → List (List K), ∀ p ∈ parts, sel p n = some (.dynamic (val p)) ∧ (val p).length = nsteps ∧
      ∀ row ∈ val p, row.length = len p

/-- The quantities a result file may hold. -/
def heldNames : List String := ["stage", "height", "elevation", "friction", "xmomentum", "ymomentum", "xvelocity", "yvelocity"]

/-- The merged quantities: those of the files, each array put together rightly. -/
structure VarsRight (Right : (Part K → List K) → List K → Prop) (sel : Part K → String → Option (Stored K)) (nsteps : ℕ)
    (parts : List (Part K)) (out : List (String × Stored K)) : Prop where
  absent : ∀ n, (∀ p ∈ parts, sel p n = none) → out.lookup n = none
  static : ∀ n ∈ heldNames, ∀ val : Part K → List K, (∀ p ∈ parts, sel p n = some (.static (val p))) →
    ∃ v, out.lookup n = some (.static v) ∧ Right val v
  dynamic : ∀ n ∈ heldNames, ∀ val : Part K → List (List K), (∀ p ∈ parts, sel p n = some (.dynamic (val p))) →
    ∃ rows, out.lookup n = some (.dynamic rows) ∧ rows.length = nsteps ∧
      ∀ s < nsteps, ∃ row, rows[s]? = some row ∧ Right (fun p => (val p).getD s []) row

end Verif.Sww
