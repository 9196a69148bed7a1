import Verif.Basic
import Mathlib.Data.List.Sort

/-!
# Model of the sparse matrices

Sources
* `/repo/anuga/utilities/sparse.py` 9-208 (`Sparse`), 211-320 (`Sparse_CSR`)
* `/repo/anuga/utilities/sparse.c` 17-60 (`_csr_mv`, `_csr_mm`), `/repo/anuga/utilities/sparse_ext.pyx` (`csr_mv`)
* `/repo/anuga/utilities/sparse_dok.c` (`add_dok_entry`, `convert_to_csr_ptr`, `add_sparse_dok`)

Simplifications
* exact arithmetic;
* a Python dictionary is an association list in insertion order, the C hash table likewise;
* indices are natural numbers (negative ones raise `AssertionError` like those beyond the end);
* raising an exception is `none`; numpy vectors are lists.
-/

namespace Verif.Sparse

variable {K : Type*} [Field K]

/-- Position of an entry. -/
abbrev Key := ℕ × ℕ

/-- `d[k] = v` for a dictionary: replaces in place or appends. -/
def put (l : List (Key × K)) (k : Key) (v : K) : List (Key × K) :=
  if (l.lookup k).isSome then l.map (fun e => if e.1 = k then (k, v) else e) else l ++ [(k, v)]

/-- `del d[k]`. -/
def del (l : List (Key × K)) (k : Key) : List (Key × K) := l.filter (fun e => e.1 ≠ k)

/-- Instances of `Sparse`: `M`, `N` and `Data`. -/
structure Mat (K : Type*) where
  M : ℕ
  N : ℕ
  data : List (Key × K)
  deriving DecidableEq

/-- `Sparse(M, N)`, `sparse.py` 36-38. -/
def Mat.empty (M N : ℕ) : Mat K := ⟨M, N, []⟩

/-- `Sparse(A)` for a dense matrix, 23-34. -/
def Mat.ofDense [DecidableEq K] (M N : ℕ) (f : ℕ → ℕ → K) : Mat K :=
  ⟨M, N, (List.range M).foldl (fun l i => (List.range N).foldl (fun l j => if f i j ≠ 0 then put l (i, j) (f i j) else l) l) []⟩

/-- `__setitem__`, 57-68. -/
def Mat.set [DecidableEq K] (A : Mat K) (i j : ℕ) (x : K) : Option (Mat K) :=
  if i < A.M then
    if j < A.N then
      if x ≠ 0 then some { A with data := put A.data (i, j) x }
      else if (A.data.lookup (i, j)).isSome then some { A with data := del A.data (i, j) } else some A
    else none
  else none

/-- `__getitem__`, 70-80. -/
def Mat.get (A : Mat K) (i j : ℕ) : Option K :=
  if i < A.M then
    if j < A.N then
      match A.data.lookup (i, j) with
      | some v => some v
      | none => some 0
    else none
  else none

/-- `len(A)`, 47-55. -/
def Mat.len (A : Mat K) : ℕ := A.data.length

/-- `copy`, 82-91. -/
def Mat.copy [DecidableEq K] (A : Mat K) : Option (Mat K) :=
  A.data.foldlM (fun (B : Mat K) e => B.set e.1.1 e.1.2 e.2) (Mat.empty A.M A.N)

/-- `todense`, 93-100. -/
def Mat.todense (A : Mat K) : List (List K) :=
  (List.range A.M).map (fun i => (List.range A.N).map (fun j =>
    if (A.data.lookup (i, j)).isSome then (A.data.lookup (i, j)).getD 0 else 0))

/-- `R[i] += v` -/
def bump (R : List K) (i : ℕ) (v : K) : List K := R.modify i (· + v)

/-- `A * vector`, 119-131. -/
def Mat.mulVec (A : Mat K) (B : List K) : Option (List K) :=
  if B.length = A.N then
    some (A.data.foldl (fun R e => bump R e.1.1 (e.2 * B.getD e.1.2 0)) (List.replicate A.M 0))
  else none

/-- `A * matrix`, 132-143, for a matrix given by `rows` rows and `cols` columns; column `c` of the result. -/
def Mat.mulCol (A : Mat K) (B : ℕ → ℕ → K) (c : ℕ) : List K :=
  A.data.foldl (fun R e => bump R e.1.1 (e.2 * B e.1.2 c)) (List.replicate A.M 0)

/-- `__add__`, 150-160. -/
def Mat.add [DecidableEq K] (A other : Mat K) : Option (Mat K) := do
  let new ← other.copy
  A.data.foldlM (fun (B : Mat K) e => do
    let old ← B.get e.1.1 e.1.2
    B.set e.1.1 e.1.2 (old + e.2)) new

/-- `scalar * A`, 162-179. -/
def Mat.scale [DecidableEq K] (c : K) (A : Mat K) : Option (Mat K) := do
  let new ← A.copy
  some { new with data := new.data.map (fun e => (e.1, c * e.2)) }

/-- `trans_mult`, 181-208. -/
def Mat.transMult (A : Mat K) (B : List K) : Option (List K) :=
  if B.length = A.M then
    some (A.data.foldl (fun R e => bump R e.1.2 (e.2 * B.getD e.1.1 0)) (List.replicate A.N 0))
  else none

/-! ## Compressed rows -/

/-- Instances of `Sparse_CSR`. -/
structure Csr (K : Type*) where
  data : List K
  colind : List ℕ
  rowPtr : List ℕ

/-- State of the conversion loop: `row_ptr`, `current_row`, `k`. -/
structure Conv where
  rowPtr : List ℕ
  current : ℤ
  k : ℕ

/-- One pass of the conversion loop, `sparse.py` 249-257 and `sparse_dok.c` 145-159. -/
def convStep (s : Conv) (key : Key) : Conv :=
  if (key.1 : ℤ) ≠ s.current then ⟨s.rowPtr.set key.1 s.k, key.1, s.k + 1⟩ else ⟨s.rowPtr, s.current, s.k + 1⟩

/-- Row pointers for sorted keys: `init` is the content of the new array; `rows + 1` entries; `sparse.py` 246-259 and
`sparse_dok.c` 138-163. -/
def rowPtrs (init : List ℕ) (rows : ℕ) (keys : List Key) : List ℕ :=
  let s := keys.foldl convStep ⟨init, -1, 0⟩
  (List.range (rows + 1)).foldl (fun p (r : ℕ) => if s.current + 1 ≤ (r : ℤ) then p.set r keys.length else p) s.rowPtr

/-- Order of the keys: tuples in lexicographic order. -/
def keyLe (a b : Key) : Bool := decide (a.1 < b.1 ∨ a.1 = b.1 ∧ a.2 ≤ b.2)

/-- Dictionary entries sorted by key. -/
def sorted (l : List (Key × K)) : List (Key × K) := l.insertionSort (fun a b => keyLe a.1 b.1 = true)

/-- `Sparse_CSR(A)`, `sparse.py` 239-266. -/
def toCsr (A : Mat K) : Csr K :=
  let es := sorted A.data
  ⟨es.map Prod.snd, es.map (fun e => e.1.2), rowPtrs (List.replicate (A.M + 1) 0) A.M (es.map Prod.fst)⟩

/-- The positions `row_ptr[i], ..., row_ptr[i+1] - 1` of row `i`. -/
def Csr.slots (C : Csr K) (i : ℕ) : List ℕ := List.range' (C.rowPtr.getD i 0) (C.rowPtr.getD (i + 1) 0 - C.rowPtr.getD i 0)

/-- `_csr_mv`, `sparse.c` 17-33, on a zero vector `y` (`sparse_ext.pyx`). -/
def Csr.mulVec (C : Csr K) (x : List K) : List K :=
  (List.range (C.rowPtr.length - 1)).map (fun i =>
    (C.slots i).foldl (fun y ckey => y + C.data.getD ckey 0 * x.getD (C.colind.getD ckey 0) 0) 0)

/-- `_csr_mm`, 36-60; column `c` of the result. -/
def Csr.mulCol (C : Csr K) (x : ℕ → ℕ → K) (c : ℕ) : List K :=
  (List.range (C.rowPtr.length - 1)).map (fun i =>
    (C.slots i).foldl (fun y ckey => y + C.data.getD ckey 0 * x (C.colind.getD ckey 0) c) 0)

/-- `Sparse_CSR.todense`, `sparse.py` 301-308. -/
def Csr.todense (C : Csr K) (N : ℕ) : List (List K) :=
  (List.range (C.rowPtr.length - 1)).map (fun i =>
    (C.slots i).foldl (fun row ckey => row.set (C.colind.getD ckey 0) (C.data.getD ckey 0)) (List.replicate N 0))

/-! ## The dictionary of keys used for fitting -/

/-- `sparse_dok`: table, `num_entries`, `num_rows`. -/
structure Dok (K : Type*) where
  table : List (Key × K)
  numEntries : ℤ
  numRows : ℕ

/-- `make_dok`, `sparse_dok.c` 20-27. -/
def Dok.make : Dok K := ⟨[], 0, 0⟩

/-- `add_dok_entry`, 39-67. -/
def Dok.addEntry [LinearOrder K] (h : Dok K) (key : Key) (value : K) : Dok K :=
  match h.table.lookup key with
  | some old =>
    let entry := old + value
    if entry ≤ 1 / 10 ^ 10 ∧ entry ≥ -(1 / 10 ^ 10) then ⟨del h.table key, h.numEntries - 1, h.numRows⟩
    else ⟨put h.table key entry, h.numEntries, h.numRows⟩
  | none =>
    let rows := if h.numRows < key.1 then key.1 else h.numRows
    if value ≤ 1 / 10 ^ 10 ∧ value ≥ -(1 / 10 ^ 10) then ⟨h.table, h.numEntries + 1 - 1, rows⟩
    else ⟨h.table ++ [(key, value)], h.numEntries + 1, rows⟩

/-- New value of an entry `x` of the first matrix in `add_sparse_dok`, 179-185, given what `find_dok_entry` found in the second. -/
def mixed (found : Option K) (x mult1 mult2 : K) : K :=
  match found with
  | some v => x * mult1 + v * mult2
  | none => x * mult1

/-- `add_sparse_dok`, 170-199: the first matrix becomes `mult1 * dok1 + mult2 * dok2`. -/
def Dok.combine [LinearOrder K] (a : Dok K) (mult1 : K) (b : Dok K) (mult2 : K) : Dok K :=
  let first := a.table.map (fun e => (e.1, mixed (b.table.lookup e.1) e.2 mult1 mult2))
  let second := b.table.map (fun e => (e.1, if (a.table.lookup e.1).isSome then 0 else e.2))
  second.foldl (fun d e => d.addEntry e.1 (e.2 * mult2)) ⟨first, a.numEntries, a.numRows⟩

/-- `convert_to_csr_ptr`, 124-168. The array `row_ptr` comes from `malloc`, so its initial content `junk` is arbitrary. -/
def Dok.toCsr (h : Dok K) (junk : List ℕ) : Csr K :=
  let es := sorted h.table
  ⟨es.map Prod.snd, es.map (fun e => e.1.2), rowPtrs junk (h.numRows + 1) (es.map Prod.fst)⟩

end Verif.Sparse
