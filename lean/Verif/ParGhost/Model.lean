import Verif.Basic
import Mathlib.Logic.Function.Basic

/-!
# Model of the exchange of ghost values with messages that do not block

Sources
* `/repo/anuga/parallel/parallel_generic_communications.py` 35-88 (`communicate_flux_timestep`), 159-248
  (`communicate_ghosts_non_blocking`);
* `/repo/anuga/parallel/parallel_shallow_water.py` 128-145 (`update_timestep`, `update_ghosts`);
* `/repo/anuga/abstract_2d_finite_volumes/generic_domain.py` 1817-1857 (exchanges in `evolve`), 1914-1971, 1974-2051, 2053-2180 (one step
  of each method).

`Isend` only names a buffer: the message system reads it at some time until the message has been received, and the buffer is the same
in all exchanges (`full_send_dict[q][2]`). The code waits for its `Irecv`s (234) and never for its `Isend`s (`send_requests` is not
used). Here a message is `copied` out of the buffer by a step of its own, at any time after it was sent.

Simplifications
* what a processor does between exchanges is a function `next` of its memory and of what it received, and a function `absorb` of its
  memory and of the numbers contributed by all processors to the `Allreduce` of the timestep, if there is one between two exchanges;
* the `k`-th message from one processor to another is received by the `k`-th `Irecv` (MPI keeps the order of messages with one tag);
* a receive request is complete once the message is in the buffer; nothing is lost.
-/

namespace Verif.ParGhost

/-- A parallel program: number of processors, keys of `full_send_dict` and `ghost_recv_dict`, content of the buffers, computation, and
whether a collective operation lies between exchange `r` and the next. -/
structure Sys (V T σ : Type) where
  m : ℕ
  sends : ℕ → List ℕ
  recvs : ℕ → List ℕ
  /-- content of the buffer for a processor, 188-195 -/
  out : ℕ → σ → ℕ → V
  /-- ghosts written (238-245) and computation until the next exchange or collective operation -/
  next : ℕ → σ → List V → σ
  /-- number contributed to `Allreduce`, 55-67 -/
  give : ℕ → σ → T
  /-- computation from `Allreduce` until the next exchange -/
  absorb : ℕ → σ → List T → σ
  coll : ℕ → Bool
  /-- whether `Isend`s are waited for; in the code they are not -/
  waitSends : Bool

/-- State of all processors and of the messages. -/
structure St (V T σ : Type) where
  mem : ℕ → σ
  /-- exchanges finished by a processor -/
  round : ℕ → ℕ
  /-- whether it is within an exchange -/
  waiting : ℕ → Bool
  /-- `full_send_dict[q][2]` on processor `p` -/
  buf : ℕ → ℕ → V
  /-- message number `r` from `p` to `q`, once the message system has read the buffer -/
  copied : ℕ → ℕ → ℕ → Option V
  /-- whether `p` still waits for the message of `q` -/
  pending : ℕ → ℕ → Bool
  /-- `ghost_recv_dict[q][2]` on processor `p` -/
  slot : ℕ → ℕ → V
  /-- contribution of a processor to the collective operation after exchange `r` -/
  mark : ℕ → ℕ → T

variable {V T σ : Type}

/-- Number of exchanges begun. -/
def St.begun (s : St V T σ) (p : ℕ) : ℕ := s.round p + if s.waiting p then 1 else 0

/-- Memory at the beginning of an exchange: after the collective operation, if there is one. -/
def Sys.enter (c : Sys V T σ) (s : St V T σ) (p : ℕ) : σ :=
  if s.round p = 0 then s.mem p
  else if c.coll (s.round p - 1) then c.absorb p (s.mem p) ((List.range c.m).map fun q => s.mark q (s.round p - 1)) else s.mem p

/-- One step. `R` is the number of exchanges of the run. -/
inductive Step (c : Sys V T σ) (R : ℕ) : St V T σ → St V T σ → Prop
  /-- 187-226: buffers are filled, `Irecv` and `Isend` are called. After a collective operation this is possible only when all
  processors have taken part in it. -/
  | begin (s : St V T σ) (p : ℕ) (hp : p < c.m) (hw : s.waiting p = false) (hR : s.round p < R)
      (hb : s.round p = 0 ∨ c.coll (s.round p - 1) = false ∨ ∀ q, q < c.m → s.round p ≤ s.round q) :
      Step c R s { s with
        mem := Function.update s.mem p (c.enter s p)
        waiting := Function.update s.waiting p true
        buf := Function.update s.buf p fun q => if q ∈ c.sends p then c.out p (c.enter s p) q else s.buf p q
        pending := Function.update s.pending p fun q => decide (q ∈ c.recvs p) }
  /-- The message system reads the buffer of a message that was sent. -/
  | copy (s : St V T σ) (p q r : ℕ) (hp : p < c.m) (hq : q ∈ c.sends p) (hr : r < s.begun p) (hn : s.copied p q r = none) :
      Step c R s { s with copied := fun p' q' r' => if p' = p ∧ q' = q ∧ r' = r then some (s.buf p q) else s.copied p' q' r' }
  /-- The next message arrives in the buffer of a receiver. -/
  | deliver (s : St V T σ) (p q : ℕ) (v : V) (hq : q < c.m) (hw : s.waiting q = true) (hpd : s.pending q p = true)
      (hc : s.copied p q (s.round q) = some v) :
      Step c R s { s with
        slot := Function.update s.slot q (Function.update (s.slot q) p v)
        pending := Function.update s.pending q (Function.update (s.pending q) p false) }
  /-- 234-245: all receives are complete, ghosts are written, the computation goes on. -/
  | finish (s : St V T σ) (p : ℕ) (hp : p < c.m) (hw : s.waiting p = true) (hd : ∀ q, s.pending p q = false)
      (hs : c.waitSends = true → ∀ q ∈ c.sends p, ∀ r < s.begun p, s.copied p q r ≠ none) :
      Step c R s { s with
        mem := Function.update s.mem p (c.next p (s.mem p) ((c.recvs p).map (s.slot p)))
        round := Function.update s.round p (s.round p + 1)
        waiting := Function.update s.waiting p false
        mark := Function.update s.mark p
          (Function.update (s.mark p) (s.round p) (c.give p (c.next p (s.mem p) ((c.recvs p).map (s.slot p))))) }

/-- An execution, with the number of its steps. -/
inductive Exec (c : Sys V T σ) (R : ℕ) : ℕ → St V T σ → St V T σ → Prop
  | refl (s : St V T σ) : Exec c R 0 s s
  | step {t : ℕ} {a b d : St V T σ} : Exec c R t a b → Step c R b d → Exec c R (t + 1) a d

/-- Before the first exchange. -/
def start (mem : ℕ → σ) (buf slot : ℕ → ℕ → V) (mark : ℕ → ℕ → T) : St V T σ :=
  ⟨mem, fun _ => 0, fun _ => false, buf, fun _ _ _ => none, fun _ _ => false, slot, mark⟩

end Verif.ParGhost
