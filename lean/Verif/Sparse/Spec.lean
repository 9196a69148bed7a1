import Verif.Sparse.Model

/-! # Vocabulary for the sparse matrix properties: dense matrices as functions -/

namespace Verif.Sparse

variable {K : Type*} [Field K]

/-- Ways to make a `Sparse` matrix through the public interface. -/
inductive Expr (K : Type*) where
  /-- `Sparse(M, N)` -/
  | zero (M N : ℕ)
  /-- `Sparse(f)` for a dense array -/
  | dense (M N : ℕ) (f : ℕ → ℕ → K)
  /-- `e[i, j] = x` -/
  | set (e : Expr K) (i j : ℕ) (x : K)
  /-- `e.copy()` -/
  | copy (e : Expr K)
  /-- `a + b` -/
  | add (a b : Expr K)
  /-- `c * e` -/
  | scale (c : K) (e : Expr K)

/-- What the code computes. -/
def Expr.eval [DecidableEq K] : Expr K → Option (Mat K)
  | .zero M N => some (Mat.empty M N)
  | .dense M N f => some (Mat.ofDense M N f)
  | .set e i j x => do let A ← e.eval; A.set i j x
  | .copy e => do let A ← e.eval; A.copy
  | .add a b => do let A ← a.eval; let B ← b.eval; A.add B
  | .scale c e => do let A ← e.eval; Mat.scale c A

/-- The dense matrix meant, as a function that is zero outside. -/
def Expr.den : Expr K → ℕ → ℕ → K
  | .zero _ _ => fun _ _ => 0
  | .dense M N f => fun i j => if i < M ∧ j < N then f i j else 0
  | .set e i j x => fun a b => if a = i ∧ b = j then x else e.den a b
  | .copy e => e.den
  | .add a b => fun i j => a.den i j + b.den i j
  | .scale c e => fun i j => c * e.den i j

/-- Number of rows and columns. -/
def Expr.dims : Expr K → ℕ × ℕ
  | .zero M N => (M, N)
  | .dense M N _ => (M, N)
  | .set e _ _ _ => e.dims
  | .copy e => e.dims
  | .add _ b => b.dims
  | .scale _ e => e.dims

/-- Assignments stay inside, sums are of matrices of one size. -/
def Expr.Ok : Expr K → Prop
  | .zero _ _ => True
  | .dense _ _ _ => True
  | .set e i j _ => e.Ok ∧ i < e.dims.1 ∧ j < e.dims.2
  | .copy e => e.Ok
  | .add a b => a.Ok ∧ b.Ok ∧ a.dims = b.dims
  | .scale _ e => e.Ok

/-- No matrix is multiplied by zero. -/
def Expr.NoZeroScale : Expr K → Prop
  | .zero _ _ => True
  | .dense _ _ _ => True
  | .set e _ _ _ => e.NoZeroScale
  | .copy e => e.NoZeroScale
  | .add a b => a.NoZeroScale ∧ b.NoZeroScale
  | .scale c e => c ≠ 0 ∧ e.NoZeroScale

end Verif.Sparse
