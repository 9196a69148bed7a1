import Verif.Basic

/-! Model of how a run is written to an output file (`.sww`): `Domain.evolve` choosing the moments
(`anuga/shallow_water/shallow_water_domain.py` 2300-2404) and `SWW_file.store_timestep`,
`Write_sww.store_quantities` and companions (`anuga/file/sww.py`).  The NetCDF library itself is
not modelled: a variable with time slices is a list of rows, an assignment to row `i` replaces it or,
one past the end, appends it. -/

set_option linter.unusedSectionVars false

namespace Verif.Sww

variable {K : Type*} [Field K] [LinearOrder K] [IsStrictOrderedRing K]

/-- A dynamic variable of a file: one row for each stored time, and the companion `_range` variable
(`sww.py` 800-829). -/
structure Var (K : Type*) where
  rows : List (List K)
  lo : K
  hi : K

/-- An open file: the attribute `starttime`, the variable `time`, the dynamic variables by name and the
centroid variables by name (`sww.py` 563-692, 798-829). -/
structure File (K : Type*) where
  starttime : K
  times : List K
  dyn : String → Var K
  dynC : String → List (List K)

/-- What the domain holds when a time step is stored: for each quantity the vertex values given by
`get_vertex_values` and the centroid values. -/
structure State (K : Type*) where
  vert : String → List K
  cent : String → List K

/-- The settings of the writer: the names of the dynamic quantities (vertex and centroid; a name in the
second list stands for the variable with `_c` appended), `minimum_storable_height`, the rounding to
single precision (`rnd`), and the constants `max_float` and `1.0e-14` (`sww.py` 80-199, 999). -/
structure Writer (K : Type*) where
  dynamic : List String
  dynamicC : List String
  minHeight : K
  rnd : K → K
  maxFloat : K
  tiny : K

/-- `store_header` for a start time (`sww.py` 563-692, 798-829): no times, no rows, and ranges set to
the sentinels. -/
def header (W : Writer K) (starttime : K) : File K where
  starttime := starttime
  times := []
  dyn _ := ⟨[], W.rnd W.maxFloat, W.rnd (-W.maxFloat)⟩
  dynC _ := []

/-- The slot a time is stored in (`sww.py` 993-1001): the next free one if the time is later than the last
one stored, otherwise the first one holding the same time; indexing the empty list of matches
raises. -/
def slot (tiny : K) (times : List K) (t : K) : Option ℕ :=
  match times.getLast? with
  | none => some times.length
  | some last =>
    if t ≤ last then times.findIdx? (fun s => decide (|s - t| < tiny)) else some times.length

/-- Assignment to a slice of a variable with unlimited first dimension (`sww.py` 1001, 1024). -/
def writeAt {α : Type*} (l : List α) (i : ℕ) (v : α) : List α :=
  if i < l.length then l.set i v else l ++ [v]

/-- Writing one dynamic quantity into a slot (`sww.py` 1021-1033): the values are rounded, the range is
compared with the values before rounding. `num.min` of an empty array raises. -/
def writeVar (rnd : K → K) (i : ℕ) (q : List K) (v : Var K) : Option (Var K) :=
  match q.min?, q.max? with
  | some a, some b =>
    some ⟨writeAt v.rows i (q.map rnd), if a < v.lo then rnd a else v.lo, if b > v.hi then rnd b else v.hi⟩
  | _, _ => none

/-- The loop over the dynamic quantities (`sww.py` 1015-1033). -/
def writeAll (rnd : K → K) (i : ℕ) (q : String → List K) : List String → (String → Var K) → Option (String → Var K)
  | [], f => some f
  | n :: ns, f =>
    match writeVar rnd i (q n) (f n) with
    | none => none
    | some v => writeAll rnd i q ns (Function.update f n v)

/-- `Write_sww.store_quantities` with a time (`sww.py` 963-1035). -/
def storeQuantities (W : Writer K) (q : String → List K) (t : K) (f : File K) : Option (ℕ × File K) :=
  match slot W.tiny f.times t with
  | none => none
  | some i =>
    match writeAll W.rnd i q W.dynamic f.dyn with
    | none => none
    | some d => some (i, { f with times := writeAt f.times i t, dyn := d })

/-- `Write_sww.store_quantities_centroid` (`sww.py` 1037-1091). -/
def storeCentroids (W : Writer K) (i : ℕ) (q : String → List K) : List String → (String → List (List K)) →
    (String → List (List K))
  | [], f => f
  | n :: ns, f => storeCentroids W i q ns (Function.update f n (writeAt (f n) i ((q n).map W.rnd)))

/-- `num.choose(storable, (no, yes))` for three arrays of one length. -/
def choose : List Bool → List K → List K → List K
  | b :: bs, n :: ns, y :: ys => (if b then y else n) :: choose bs ns ys
  | _, _, _ => []

/-- The points deep enough to be stored, `w - z >= minimum_storable_height` (`sww.py` 358-365). -/
def storable (h : K) (w z : List K) : List Bool := List.zipWith (fun a b => decide (h ≤ a - b)) w z

/-- The array handed over for a dynamic quantity (`sww.py` 376-396): single precision values, the stage
replaced by the bed and the momenta by zero where the water is shallow.  Without `stage` among the dynamic
quantities nothing is replaced. -/
def shown (W : Writer K) (s : State K) (name : String) : List K :=
  let A := (s.vert name).map W.rnd
  if "stage" ∈ W.dynamic then
    let ok := storable W.minHeight (s.vert "stage") (s.vert "elevation")
    if name = "stage" then choose ok (s.vert "elevation") A
    else if name = "xmomentum" ∨ name = "ymomentum" then choose ok (A.map fun _ => 0) A
    else A
  else A

/-- `SWW_file.store_timestep` while the file is not too big (`sww.py` 339-413); `t` is
`domain.relative_time`. -/
def storeTimestep (W : Writer K) (s : State K) (t : K) (f : File K) : Option (File K) :=
  match storeQuantities W (shown W s) t f with
  | none => none
  | some (i, g) => some { g with dynC := storeCentroids W i s.cent W.dynamicC g.dynC }

/-- A sequence of calls. -/
def storeAll (W : Writer K) : List (K × State K) → File K → Option (File K)
  | [], f => some f
  | c :: cs, f =>
    match storeTimestep W c.2 c.1 f with
    | none => none
    | some g => storeAll W cs g

/-- `store_timestep` when the file has become too big (`sww.py` 291-338): a new file is started whose
`starttime` is the present absolute time `domain.starttime + domain.relative_time`, and the present step is
stored there.  The test of the size (291-297) is left open, and the fresh file is taken to be
small enough.  Result: the old file and the new one. -/
def rollOver (W : Writer K) (s : State K) (start rel : K) (f : File K) : Option (File K × File K) :=
  match storeTimestep W s rel (header W (start + rel)) with
  | none => none
  | some g => some (f, g)

/-- Readers add the attribute `starttime` to the variable `time`
(`get_mesh_and_quantities_from_file`, `sww.py` 1350-1352). -/
def absoluteTimes (f : File K) : List K := f.times.map (· + f.starttime)

/-- A static quantity in the file: rounded values and their range (`sww.py` 903-915). -/
def storeStatic (rnd : K → K) (q : List K) : Option (List K × K × K) :=
  match (q.map rnd).min?, (q.map rnd).max? with
  | some a, some b => some (q.map rnd, a, b)
  | _, _ => none

/-- The output loop of `Domain.evolve` (`shallow_water_domain.py` 2334-2343, 2363-2404): `count` is
`yieldstep_counter`, which a domain keeps between calls.  Every yielded moment whose count is a
multiple of `output_frequency` is stored; the count goes up when control comes back after the
`yield`.  Result: the moments stored and the count. -/
def output {α : Type*} (freq : ℕ) : ℕ → List α → List α × ℕ
  | count, [] => ([], count)
  | count, t :: ts =>
    let r := output freq (count + 1) ts
    (if count % freq = 0 then t :: r.1 else r.1, r.2)

/-- The same when the caller leaves the loop (`break`) at the last of the moments: the code after that
`yield` is not run (`shallow_water_domain.py` 2402-2404). -/
def outputBreak {α : Type*} (freq count : ℕ) (ts : List α) : List α × ℕ :=
  let r := output freq count ts
  (r.1, if ts = [] then r.2 else r.2 - 1)

/-- Calls of `evolve` one after the other on one domain; the flag says whether the caller left the loop. -/
def runs {α : Type*} (freq : ℕ) : ℕ → List (List α × Bool) → List α
  | _, [] => []
  | count, (ts, broke) :: rest =>
    let r := if broke then outputBreak freq count ts else output freq count ts
    r.1 ++ runs freq r.2 rest

end Verif.Sww
