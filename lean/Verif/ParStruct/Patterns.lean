import Verif.ParStruct.Net

/-!
# The ways in which operators shared by processors exchange messages

Each pattern is the program of one processor `me`; the same lines are executed by all of them.

* `/repo/anuga/parallel/parallel_inlet.py` 98-118, 139-332 (the master of an inlet adds numbers of the others);
* `/repo/anuga/parallel/parallel_boyd_box_operator.py` 153-179, 226-256 (levels sent to the master of the structure);
* `/repo/anuga/parallel/parallel_structure_operator.py` 269-282, 350-361, 377-390, 454-464.
-/

namespace Verif.ParStruct

variable {V α : Type}

/-- Messages: numbers, truth values and vectors. -/
inductive Msg (K : Type)
  | num (x : K)
  | flag (b : Bool)
  | vec (x y : K)

/-- `pypar.send(x, dst)` for each of some values. -/
def sendAll (dst : ℕ) : List V → Prog V Unit
  | [] => .done ()
  | v :: vs => .send dst v (sendAll dst vs)

/-- `pypar.receive(src)`, as many times as said. -/
def recvAll (src : ℕ) : ℕ → Prog V (List V)
  | 0 => .done []
  | n + 1 => .recv src fun v => (recvAll src n).bind fun vs => .done (v :: vs)

/-- Processor `e` tells the master some values (`n` of them): the master has them, by itself or by messages; others know nothing. -/
def report (e master n : ℕ) (me : ℕ) (vals : Prog V (List V)) : Prog V (List V) :=
  if me = master then if me = e then vals else recvAll e n
  else if me = e then vals.bind fun vs => (sendAll master vs).bind fun _ => .done []
  else .done []

/-- The loop in which the master sends values to each processor of a list but itself. -/
def sendEach (master : ℕ) (vs : List V) : List ℕ → Prog V Unit
  | [] => .done ()
  | i :: l => if i = master then sendEach master vs l else (sendAll i vs).bind fun _ => sendEach master vs l

/-- The master sends values (`n` of them) to the processors of a list, which receive them. -/
def announce (master n : ℕ) (l : List ℕ) (me : ℕ) (vals : Prog V (List V)) : Prog V (List V) :=
  if me = master then vals.bind fun vs => (sendEach master vs l).bind fun _ => .done vs
  else if me ∈ l then recvAll master n
  else .done []

/-- The loop in which the master of an inlet adds the numbers of the others. -/
def addUp {K : Type} [Add K] (master : ℕ) : List ℕ → K → Prog (Msg K) K
  | [], acc => .done acc
  | i :: l, acc =>
    if i = master then addUp master l acc
    else .recv i fun m => match m with
      | .num x => addUp master l (acc + x)
      | _ => .fail

/-- A number added up over the processors of an inlet: the master has the sum, the others their own part. -/
def total {K : Type} [Add K] (master : ℕ) (procs : List ℕ) (me : ℕ) (x : K) : Prog (Msg K) K :=
  if me = master then addUp master procs x else .send master (.num x) (.done x)

end Verif.ParStruct
