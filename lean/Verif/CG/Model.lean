import Verif.Basic
import Mathlib.Data.Matrix.Mul

/-!
# Model of the conjugate gradient solvers

Sources
* `/repo/anuga/utilities/cg_solve.py` 51-139 (`conjugate_gradient`), 142-232 (`_conjugate_gradient`), 235-341
  (`_conjugate_gradient_preconditioned`)
* `/repo/anuga/utilities/cg.c` 191-220 (`_jacobi_precon_c`), 232-288 (`_cg_solve_c`), 303-365 (`_cg_solve_c_precon`), and the
  vector routines 31-181

Simplifications
* exact arithmetic, so the order of summation in the OpenMP reductions does not matter;
* the matrix is a square matrix acting by `mulVec`, vectors are functions on `Fin n` (for `Sparse_CSR` see C22);
* division by zero, which in floating point yields infinities or `nan` and no exception, ends the run in `breakdown`;
* `imax` is a natural number (negative values act like 0); the counter `i` is represented by the remaining `imax - i`;
* statistics, logging and shape checks are left out.
-/

namespace Verif.CG

open Matrix

variable {n : ℕ} {K : Type*} [Field K]

/-- Vectors. -/
abbrev Vec (n : ℕ) (K : Type*) := Fin n → K

/-- Variables carried round the loop. -/
structure St (n : ℕ) (K : Type*) where
  x : Vec n K
  r : Vec n K
  d : Vec n K
  rTr : K

/-- `z = D * r` for a diagonal preconditioner with weights `w`: `cg_solve.py` 262-265 and 289, `cg_zDinx` in `cg.c` 143-154;
`none` is the unpreconditioned solver, where `r` is used itself. -/
def precond (w : Option (Vec n K)) (r : Vec n K) : Vec n K :=
  match w with
  | none => r
  | some w => fun i => 1 / w i * r i

/-- Before the Python loops: `r = b - A * x`, `d = r` (also with a preconditioner), `rTr`; 181-185 and 287-292. -/
def pyStart (A : Matrix (Fin n) (Fin n) K) (w : Option (Vec n K)) (b x0 : Vec n K) : St n K :=
  let r := b - A *ᵥ x0
  ⟨x0, r, r, r ⬝ᵥ precond w r⟩

/-- Before the C loops: `d` is `r`, or `rhat` with a preconditioner; `cg.c` 250-254 and 324-329. -/
def cStart (A : Matrix (Fin n) (Fin n) K) (w : Option (Vec n K)) (b x0 : Vec n K) : St n K :=
  let r := b + (-1 : K) • (A *ᵥ x0)
  ⟨x0, r, precond w r, r ⬝ᵥ precond w r⟩

/-- Body of the Python loops, 191-216 and 298-324. -/
def pyStep [DecidableEq K] (A : Matrix (Fin n) (Fin n) K) (w : Option (Vec n K)) (s : St n K) : Option (St n K) :=
  let q := A *ᵥ s.d
  if s.d ⬝ᵥ q = 0 ∨ s.rTr = 0 then none
  else
    let alpha := s.rTr / (s.d ⬝ᵥ q)
    let x := s.x + alpha • s.d
    let r := s.r - alpha • q
    let z := precond w r
    let rTr := r ⬝ᵥ z
    let bt := rTr / s.rTr
    some ⟨x, r, z + bt • s.d, rTr⟩

/-- Body of the C loops, `cg.c` 258-272 and 333-347: vectors are updated in place by `cg_daxpy` and `cg_dscal`. -/
def cStep [DecidableEq K] (A : Matrix (Fin n) (Fin n) K) (w : Option (Vec n K)) (s : St n K) : Option (St n K) :=
  let q := A *ᵥ s.d
  if s.d ⬝ᵥ q = 0 ∨ s.rTr = 0 then none
  else
    let alpha := s.rTr / (s.d ⬝ᵥ q)
    let x := s.x + alpha • s.d
    let r := s.r + (-alpha) • q
    let rhat := precond w r
    let rTr := r ⬝ᵥ rhat
    let bt := rTr / s.rTr
    let d := bt • s.d
    some ⟨x, r, d + (1 : K) • rhat, rTr⟩

/-- Outcome of a solve. -/
inductive Res (n : ℕ) (K : Type*) where
  | ok (x : Vec n K)
  | notConverged
  | breakdown
  deriving DecidableEq

variable [LinearOrder K]

/-- `rTr > tol ** 2 * rTr0 and rTr > atol ** 2`, 190, 297; `cg.c` 256, 331. -/
def goOn (tol atol rTr0 rTr : K) : Prop := rTr > tol ^ 2 * rTr0 ∧ rTr > atol ^ 2

instance (tol atol rTr0 rTr : K) : Decidable (goOn tol atol rTr0 rTr) := inferInstanceAs (Decidable (_ ∧ _))

/-- The Python loops; the first argument is `imax - i`. `ConvergenceError` is raised inside the loop, when `i` reaches `imax`:
190-224 and 297-332. -/
def pyLoop (A : Matrix (Fin n) (Fin n) K) (w : Option (Vec n K)) (tol atol rTr0 : K) : ℕ → St n K → Res n K
  | 0, s => .ok s.x
  | m + 1, s =>
    if goOn tol atol rTr0 s.rTr then
      match pyStep A w s with
      | none => .breakdown
      | some s' => if m = 0 then .notConverged else pyLoop A w tol atol rTr0 m s'
    else .ok s.x

/-- `_conjugate_gradient` and `_conjugate_gradient_preconditioned`. -/
def pySolve (A : Matrix (Fin n) (Fin n) K) (w : Option (Vec n K)) (b x0 : Vec n K) (imax : ℕ) (tol atol : K) : Res n K :=
  pyLoop A w tol atol (pyStart A w b x0).rTr (imax - 1) (pyStart A w b x0)

/-- The C loops: the vector left in `x` and the value returned, which is decided after the loop; `none` is a breakdown. `cg.c`
256-288 and 331-363. -/
def cLoop (A : Matrix (Fin n) (Fin n) K) (w : Option (Vec n K)) (tol atol rTr0 : K) : ℕ → St n K → Option (Vec n K × ℤ)
  | 0, s => some (s.x, -1)
  | m + 1, s =>
    if goOn tol atol rTr0 s.rTr then
      match cStep A w s with
      | none => none
      | some s' => cLoop A w tol atol rTr0 m s'
    else some (s.x, 0)

/-- `_cg_solve_c` and `_cg_solve_c_precon`. -/
def cSolve (A : Matrix (Fin n) (Fin n) K) (w : Option (Vec n K)) (b x0 : Vec n K) (imax : ℕ) (tol atol : K) :
    Option (Vec n K × ℤ) :=
  cLoop A w tol atol (cStart A w b x0).rTr (imax - 1) (cStart A w b x0)

/-- `_jacobi_precon_c`, `cg.c` 191-220: the diagonal, with 1 where it is zero. -/
def jacobi (A : Matrix (Fin n) (Fin n) K) : Vec n K := fun i => if A i i = 0 then 1 else A i i

/-- `conjugate_gradient` for a vector `b`, `cg_solve.py` 51-139. The start vector is replaced by `b` with a preconditioner and in
the C version. -/
def solve (A : Matrix (Fin n) (Fin n) K) (b : Vec n K) (x0 : Option (Vec n K)) (imax : ℕ) (tol atol : K) (useC jac : Bool) : Res n K :=
  let w := if jac then some (jacobi A) else none
  if useC then
    match cSolve A w b b imax tol atol with
    | none => .breakdown
    | some (x, err) => if err = -1 then .notConverged else .ok x
  else pySolve A w b (if jac then b else x0.getD 0) imax tol atol

/-- `conjugate_gradient` with `use_c_cg` for several right hand sides `(b, x0)`, 79-97, 108-120, 130-134: each column overwrites `err`, which
is looked at once at the end. -/
def solveColumnsC (A : Matrix (Fin n) (Fin n) K) (cols : List (Vec n K × Vec n K)) (imax : ℕ) (tol atol : K) (jac : Bool) :
    Option (List (Vec n K)) :=
  let w := if jac then some (jacobi A) else none
  match cols.mapM (fun c => cSolve A w c.1 (if jac then c.1 else c.2) imax tol atol) with
  | none => none
  | some rs => if (rs.map Prod.snd).getLastD 0 = -1 then none else some (rs.map Prod.fst)

end Verif.CG
