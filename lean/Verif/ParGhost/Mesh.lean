import Verif.ParGhost.Spec
import Verif.ParGhost.Order
import Verif.Par.Model

/-!
# The exchange of a distributed mesh

Sources: `/repo/anuga/parallel/distribute_mesh.py` 1133-1168 (dictionaries have the processors with at least one triangle to send or
receive as keys), `/repo/anuga/parallel/parallel_generic_communications.py` 187-195, 238-245.

The memory of a processor consists of the values of its local triangles and of anything else.
-/

namespace Verif.ParGhost

open Verif.Par (Local put)

variable {α T τ : Type}

/-- Dictionary of a processor, empty if there is no such processor. -/
def dict (parts : List Local) (f : Local → ℕ → List (ℕ × ℕ)) (p q : ℕ) : List (ℕ × ℕ) :=
  match parts[p]? with
  | some a => f a q
  | none => []

/-- Keys of a dictionary. -/
def keys (parts : List Local) (f : Local → ℕ → List (ℕ × ℕ)) (p : ℕ) : List ℕ :=
  (List.range parts.length).filter fun q => !(dict parts f p q).isEmpty

/-- The program of a distributed mesh; `work`, `give` and `absorb` are any computations of single processors, `coll` the order of
collective operations. -/
def onMesh (parts : List Local) (work : ℕ → (ℕ → α) × τ → (ℕ → α) × τ) (give : ℕ → (ℕ → α) × τ → T)
    (absorb : ℕ → (ℕ → α) × τ → List T → (ℕ → α) × τ) (coll : ℕ → Bool) : Sys (List α) T ((ℕ → α) × τ) where
  m := parts.length
  sends := keys parts Local.fullSend
  recvs := keys parts Local.ghostRecv
  out p x q := (dict parts Local.fullSend p q).map fun k => x.1 k.1
  next p x vs := work p
    (((keys parts Local.ghostRecv p).zip vs).foldl (fun u y => put u ((dict parts Local.ghostRecv p y.1).map Prod.fst) y.2) x.1, x.2)
  give := give
  absorb := absorb
  coll := coll
  waitSends := false

end Verif.ParGhost
