import Verif.Basic

/-!
# Model of reading tsunami sources from multiplexed files (`mux2`)

Sources
* `/repo/anuga/file/urs.c` 38-126 (`fillDataArray`), 129-139 (`isdata`), 142-160 (`getNumData`), 164-335 (`_read_mux2_headers`), 338-617
  (`_read_mux2`);
* `/repo/anuga/file/urs_ext.pyx` 15-133 (`read_mux2`);
* `/repo/anuga/file/mux.py` 24-124 (`read_mux2_py`).

Simplifications
* exact field in place of `float`; a file is given by its contents (head of every station, first and last recorded step of every station,
  numbers of the data block);
* what the C code does beyond its arrays (stations of different length, indices that do not exist) is the error `undefined`;
* negative indices in the ordering are left out; memory is never exhausted.
-/

namespace Verif.Mux

variable {K : Type} [Field K] [LinearOrder K]

inductive Err where
  /-- `_read_mux2_headers` refuses the files -/
  | incompatible
  /-- the size of a data block is negative -/
  | size
  /-- memory beyond an array is used -/
  | undefined
  /-- assertions of `urs_ext.pyx` about first and last step -/
  | window
  /-- assertions of `mux.py` -/
  | params
  /-- `urs2sts`: gauges of the three quantities differ -/
  | inconsistent
  /-- `urs2sts`: gauges in different zones -/
  | zones
  deriving DecidableEq, Repr

/-- `struct tgsrwg` of `structure.h`: the fields used. -/
structure Head (K : Type) where
  lat : K
  lon : K
  z : K
  dt : K
  nt : ℕ
  ig : ℤ

/-- A file. -/
structure Src (K : Type) where
  heads : List (Head K)
  fros : List ℤ
  lros : List ℤ
  block : List K

def nodata : K := 99

/-- `isdata`, 129-139. -/
def isdata (x : K) : Bool := !(decide (x < 99 + 1 / 100000) && decide (99 < x + 1 / 100000))

/-- First recorded step of a station. -/
def fro (s : Src K) (j : ℕ) : ℤ := s.fros.getD j (-1)

/-- Last recorded step of a station. -/
def lro (s : Src K) (j : ℕ) : ℤ := s.lros.getD j (-1)

/-- `it + 1 >= nst[jsta] && it + 1 <= nft[jsta]`, 90. -/
def recording (s : Src K) (j it : ℕ) : Bool := decide (fro s j ≤ it + 1) && decide ((it : ℤ) + 1 ≤ lro s j)

/-- 89-91, 116-118: records of stations from `lo` to `hi` at a step. -/
def skipped (s : Src K) (lo hi it : ℕ) : ℕ := (List.range' lo (hi - lo)).countP fun j => recording s j it

/-- Loop 81-119 and 121-124: `n` steps are left, the next one is `it`, `offset` records have been passed. -/
def fillLoop (s : Src K) (buf : List K) (ista total : ℕ) : ℕ → ℕ → ℕ → Except Err (List K)
  | 0, _, _ => .ok []
  | n + 1, it, offset =>
    let offset := offset + 1 + skipped s 0 ista it
    if recording s ista it then
      match buf[offset]? with
      | none => .error .undefined
      | some x =>
        match fillLoop s buf ista total n (it + 1) (offset + 1 + skipped s (ista + 1) total it) with
        | .error e => .error e
        | .ok xs => .ok (x :: xs)
    else if ((it : ℤ) + 1 < fro s ista) then
      match fillLoop s buf ista total n (it + 1) (offset + skipped s (ista + 1) total it) with
      | .error e => .error e
      | .ok xs => .ok (0 :: xs)
    else .ok (List.replicate (n + 1) nodata)

/-- `fillDataArray`, 38-126. -/
def fill (s : Src K) (buf : List K) (ista total nt : ℕ) (ig : ℤ) : Except Err (List K) :=
  if ig = -1 ∨ fro s ista = -1 then .ok (List.replicate nt 0) else fillLoop s buf ista total nt 0 0

/-- `getNumData`, 142-160. -/
def lastStep (s : Src K) (total : ℕ) : ℤ :=
  (List.range total).foldl (fun a j => if fro s j = -1 then a else max a (lro s j)) 0

def numData (s : Src K) (total : ℕ) : ℤ :=
  ((List.range total).map fun j => if fro s j = -1 then 0 else lro s j - fro s j + 1).sum + lastStep s total * total

/-- 495-500: the block is read over the buffer; what the file does not have stays. -/
def load (buf : List K) (s : Src K) (total : ℕ) : List K :=
  let got := s.block.take (numData s total).toNat
  got ++ buf.drop got.length

/-- `_read_mux2_headers`, 164-335: number of stations, length and timestep of station 0 and size of the largest data block. -/
def headers (srcs : List (Src K)) : Except Err (ℕ × ℕ × K × ℕ) :=
  match srcs with
  | [] => .error .window
  | s0 :: _ =>
    match s0.heads with
    | [] => .error .undefined
    | h0 :: _ =>
      if ¬ srcs.all (fun s => s.heads.map (fun h => (h.dt, h.nt)) == s0.heads.map fun h => (h.dt, h.nt)) then .error .incompatible
      else if srcs.any (fun s => decide (numData s s0.heads.length < 0)) then .error .size
      else if ¬ s0.heads.all (fun h => h.nt == h0.nt) then .error .undefined
      else .ok (s0.heads.length, h0.nt, h0.dt, (srcs.map fun s => (numData s s0.heads.length).toNat).foldl max 0)

/-- What is kept of a selected station: values, first and last step. -/
structure Row (K : Type) where
  vals : List K
  first : ℤ
  last : ℤ
  deriving DecidableEq

/-- 531-543: one source is weighted and added. -/
def add (w : K) (a b : List K) : List K := List.zipWith (fun x y => if isdata x && isdata y then x + y * w else nodata) a b

/-- 519-590: one source for one selected station; `first?` says whether it is the first source. -/
def addSource (s : Src K) (w : K) (buf : List K) (total nt : ℕ) (isFirst : Bool) (h : Head K) (ista : ℕ) (r : Row K) :
    Except Err (Row K) :=
  match fill s buf ista total nt h.ig with
  | .error e => .error e
  | .ok xs =>
    .ok ⟨add w r.vals xs, if isFirst then fro s ista else min r.first (fro s ista),
      if isFirst then lro s ista else max r.last (lro s ista)⟩

/-- 517-592: one source for all selected stations. -/
def addAll (s : Src K) (w : K) (buf : List K) (total nt : ℕ) (isFirst : Bool) (heads : List (Head K)) :
    List (ℕ × Row K) → Except Err (List (ℕ × Row K))
  | [] => .ok []
  | (ista, r) :: rs =>
    match heads[ista]? with
    | none => .error .undefined
    | some h =>
      match addSource s w buf total nt isFirst h ista r with
      | .error e => .error e
      | .ok r' =>
        match addAll s w buf total nt isFirst heads rs with
        | .error e => .error e
        | .ok rs' => .ok ((ista, r') :: rs')

/-- 461-592: all sources. -/
def sources (total nt : ℕ) (heads : List (Head K)) : List (Src K × K) → Bool → List K → List (ℕ × Row K) → Except Err (List (ℕ × Row K))
  | [], _, _, rows => .ok rows
  | (s, w) :: ss, isFirst, buf, rows =>
    match addAll s w (load buf s total) total nt isFirst heads rows with
    | .error e => .error e
    | .ok rows' => sources total nt heads ss false (load buf s total) rows'

/-- `_read_mux2`, 338-617. An empty permutation means all stations (386-410). -/
def readMux2 (srcs : List (Src K)) (weights : List K) (perm : List ℕ) : Except Err (ℕ × K × List (ℕ × Row K)) :=
  match headers srcs with
  | .error e => .error e
  | .ok (total, nt, dt, nmax) =>
    let sel := if perm.isEmpty then List.range total else perm
    match sources total nt ((srcs.head?.map Src.heads).getD []) (srcs.zip weights) true (List.replicate nmax 0)
        (sel.map fun i => (i, ⟨List.replicate nt 0, 0, 0⟩)) with
    | .error e => .error e
    | .ok rows => .ok (nt, dt, rows)

/-- `urs_ext.pyx` 72-80. -/
def startStep (nt : ℕ) (rows : List (ℕ × Row K)) : ℤ := rows.foldl (fun a r => min a r.2.first) ((nt : ℤ) + 1)

def finishStep (rows : List (ℕ × Row K)) : ℤ := rows.foldl (fun a r => max a r.2.last) (-1)

/-- `urs_ext.pyx` 113-122: values of one station from the first to the last step of all; zeros after its own last step. Rows have
`finish - start + 1` entries. -/
def window (start finish : ℤ) (r : Row K) : List K :=
  let vals := ((List.range finish.toNat).filter fun (it : ℕ) => decide (start ≤ (it : ℤ) + 1)).map fun (it : ℕ) =>
    if (it : ℤ) + 1 ≤ r.last then r.vals.getD it 0 else 0
  vals ++ List.replicate ((finish - start + 1).toNat - vals.length) 0

/-- What `read_mux2_py` returns. -/
structure Result (K : Type) where
  times : List K
  lats : List K
  lons : List K
  elevation : List K
  quantity : List (List K)
  starttime : K

/-- `read_mux2` (`urs_ext.pyx`) and `read_mux2_py` (`mux.py` 58-124). -/
def readPy (srcs : List (Src K)) (weights : List K) (perm : List ℕ) : Except Err (Result K) :=
  if srcs.isEmpty || srcs.length ≠ weights.length then .error .window
  else
    match readMux2 srcs weights perm with
    | .error e => .error e
    | .ok (nt, dt, rows) =>
      let start := startStep nt rows
      let finish := finishStep rows
      if (nt : ℤ) < start ∨ finish < 0 ∨ finish ≤ start then .error .window
      else if dt ≤ 0 ∨ nt = 0 then .error .params
      else
        let heads := (srcs.head?.map Src.heads).getD []
        let of := fun (f : Head K → K) (r : ℕ × Row K) => (heads[r.1]?.map f).getD 0
        .ok { times := (List.range (finish - start + 1).toNat).map fun (k : ℕ) => dt * (k : K)
              lats := rows.map (of Head.lat)
              lons := rows.map (of Head.lon)
              elevation := rows.map fun r => -of Head.z r
              quantity := rows.map fun r => window start finish r.2
              starttime := rows.foldl (fun a r => min (dt * (r.2.first : K)) a) (10 ^ 16) }

end Verif.Mux
