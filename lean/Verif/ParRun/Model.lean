import Verif.Par.Model
import Verif.Extrap.Step

/-!
# Model of a run on several processors

Sources
* `/repo/anuga/parallel/parallel_shallow_water.py` 128-155 (`update_timestep`, `update_ghosts`)
* `/repo/anuga/parallel/parallel_generic_communications.py` 35-86, 155-250 (modelled in `Verif.Par`)
* `/repo/anuga/parallel/parallel_api.py` 60-230 (`distribute`: local domains, values handed over)
* `/repo/anuga/abstract_2d_finite_volumes/generic_domain.py` 1815-1912 (order of step, ghost exchange and yield),
  1914-2176 (steps, modelled in `Verif.Quantity`), 2011-2012 (exchange inside rk2)
* `/repo/anuga/abstract_2d_finite_volumes/neighbour_mesh.py` (neighbour arrays, modelled in `Verif.Mesh`)

Every processor runs the modelled serial code (`Verif.Extrap.World`) on its local mesh. Simplifications: those of the parts;
no river walls; no operators between the steps; constants and limiter parameters of the local domains are those of the serial
domain (`distribute` itself only copies the flow algorithm, the low Froude switch and the minimum heights); centroid values are
handed over as they are (the code hands over vertex values and averages them); the timestep is chosen by an arbitrary function of the flux timestep, the same
on all processors.
-/

namespace Verif.ParRun

open Verif.Flux (Q3 Edge Dom Consts FSt computeFluxes Method stepOf)
open Verif.Extrap (World Geo cent state)
open Verif.Mesh (MeshData)
open Verif.Par (Local)

variable {K : Type*} [Field K] [LinearOrder K] {N : ℕ}

/-- `neighbours` and `neighbour_edges` of a mesh of `n` triangles as read by the flux computation: negative entries are
boundary edges. -/
def nbrOf (n : ℕ) (m : MeshData) (e : Edge n) : Option (Edge n) :=
  let l := m.enum.neighbours (e.1, e.2)
  let j := m.nbr.neighbourEdges (e.1, e.2)
  if h : 0 ≤ l ∧ l.toNat < n ∧ 0 ≤ j ∧ j.toNat < 3 then some (⟨l.toNat, h.2.1⟩, ⟨j.toNat, h.2.2.2⟩) else none

/-- Local triangles of a part. -/
abbrev Tri (a : Local) := Fin a.tris.length

/-- What differs from processor to processor: counters and work arrays of the flux computation, and what the boundary arrays
hold on edges tagged "ghost", for which no boundary condition is evaluated (`parallel_api.py` 129, `generic_domain.py` 2296-2301). -/
structure Proc (n : ℕ) (K : Type*) where
  call : K → (Fin n × Fin 3 → K) → ℤ
  arr : K → (Fin n × Fin 3 → K) → FSt n K
  first : K → (Fin n × Fin 3 → K) → Bool
  stale : K → Edge n → Q3 K

section

variable [NeZero N]

/-- Number in the serial mesh of a local triangle. -/
def serialNo (a : Local) (k : Tri a) : Fin N := Fin.ofNat N (a.triL2g.getD k 0)

/-- Row of the serial quantity arrays handed over for a local triangle. -/
def row (a : Local) (k : Tri a) : Fin N := Fin.ofNat N (a.rows.getD k 0)

/-- Mesh of the local domain, built by its constructor (`neighbour_mesh.py` 60-170). The error never occurs (C67). -/
def localMesh (a : Local) : MeshData :=
  match Verif.Mesh.buildMesh a.tris a.boundary with
  | .ok m => m
  | .error _ => ⟨⟨fun _ => -1, fun _ => -1, fun _ => 3⟩, [], ⟨fun _ => -1, [], [], [], fun _ => []⟩⟩

/-- The local domain of a processor, `parallel_api.py` 111-133: geometry is computed from the coordinates of the same nodes,
quantity values are those of the rows handed over, boundary conditions belong to the tags. -/
def localWorld (W : World N K) (a : Local) (pr : Proc a.tris.length K) : World a.tris.length K :=
  let ml := localMesh a
  let s : Tri a → Fin N := serialNo a
  let r : Tri a → Fin N := row a
  { G := { nbr := nbrOf _ ml
           cx := fun k => W.G.cx (s k)
           cy := fun k => W.G.cy (s k)
           ex := fun e => W.G.ex (s e.1, e.2)
           ey := fun e => W.G.ey (s e.1, e.2) }
    p := W.p
    cs := W.cs
    base := { nbr := nbrOf _ ml
              bval := fun _ => ⟨0, 0, 0⟩
              qE := fun _ => ⟨0, 0, 0⟩
              bedE := fun _ => 0
              heightE := fun _ => 0
              stageC := fun _ => 0
              bedC := fun _ => 0
              heightC := fun _ => 0
              normal := fun e => W.base.normal (s e.1, e.2)
              len := fun e => W.base.len (s e.1, e.2)
              area := fun k => W.base.area (s k)
              radius := fun k => W.base.radius (s k)
              full := fun k => decide (k.1 < a.nFull)
              wall := fun _ => false
              wallElev := W.base.wallElev
              wallProps := W.base.wallProps
              update := fun _ => true
              allowIncrease := W.base.allowIncrease }
    bed := fun k => W.bed (r k)
    bnd := fun t e q => if ml.boundary.lookup (e.1.1, e.2.1) = some "ghost" then pr.stale t e else W.bnd t (s e.1, e.2) q
    fc := W.fc
    fr := fun k =>
      let x := W.fr (s k)
      { W.fr (r k) with x0 := x.x0, y0 := x.y0, x1 := x.x1, y1 := x.y1, x2 := x.x2, y2 := x.y2 }
    sloped := W.sloped
    call := pr.call
    arr := pr.arr
    first := pr.first
    dt := fun _ _ => 0
    ghosts := fun q => q
    thin := true }

end

/-- `flux_timestep` after the first flux computation of a step. -/
def fluxStep (w : World N K) (t : K) (q : Fin N × Fin 3 → K) : K :=
  (computeFluxes w.cs (w.dom t q) (w.call t q) true 0 (w.arr t q)).timestep

/-- The serial domain; `choose` is what `update_timestep` makes of the flux timestep. -/
def serialEnv (W : World N K) (width : ℕ) (choose : K → K) : Quantity.Env K (Fin N × Fin 3) :=
  { W.env with
    dt := fun t q => choose (fluxStep W t q)
    ghosts := fun q => q
    ghostLayerThin := decide (width < 4) }

/-- All values on all processors. -/
abbrev Idx (parts : List Local) := Σ p : Fin parts.length, Tri parts[p] × Fin 3

/-- The values of one processor. -/
def on {parts : List Local} (q : Idx parts → K) (p : Fin parts.length) : Tri parts[p] × Fin 3 → K := fun i => q ⟨p, i⟩

/-- Values by processor and local number. -/
def table {parts : List Local} (q : Idx parts → K) (p k : ℕ) : Fin 3 → K :=
  if h : ∃ hp : p < parts.length, k < (parts[p]).tris.length then fun c => q ⟨⟨p, h.1⟩, (⟨k, h.2⟩, c)⟩ else fun _ => 0

/-- Smallest flux timestep of all processors, `communicate_flux_timestep`. -/
def smallest : List K → K
  | [] => 0
  | x :: xs => Verif.Par.commonStep none x xs

/-- All processors together: everything but the timestep and the exchange is done by each on its own. -/
def parEnv {parts : List Local} (v : ∀ p : Fin parts.length, World (parts[p]).tris.length K) (width : ℕ) (choose : K → K) :
    Quantity.Env K (Idx parts) where
  distribute := fun q i => (v i.1).env.distribute (on q i.1) i.2
  expl := fun t q i => (v i.1).env.expl t (on q i.1) i.2
  semi := fun t q i => (v i.1).env.semi t (on q i.1) i.2
  dt := fun t q => choose (smallest ((List.finRange parts.length).map (fun p => fluxStep (v p) t (on q p))))
  ghosts := fun q i => Verif.Par.exchange parts (table q) i.1 i.2.1 i.2.2
  ghostLayerThin := decide (width < 4)
  post := fun q i => (v i.1).env.post (on q i.1) i.2

/-- What happens in `evolve`: an internal step, with the choice of its timestep, or a yield. -/
inductive Event (K : Type*) where
  | step (m : Method) (choose : K → K)
  | yield

/-- `evolve`, 1835-1905: a step is followed by the ghost exchange, before a yield the values are distributed. -/
def run {ι : Type*} [Fintype ι] (env : (K → K) → Quantity.Env K ι) : List (Event K) → K → (ι → K) → Option (K × (ι → K))
  | [], t, q => some (t, q)
  | .yield :: es, t, q => run env es t ((env (fun x => x)).distribute q)
  | .step m choose :: es, t, q =>
    match stepOf m (env choose) t q with
    | none => none
    | some r => run env es r.time ((env choose).ghosts r.q)

/-- Values handed to the processors at the start, `parallel_api.py` 117-124. -/
def handOut [NeZero N] (parts : List Local) (q : Fin N × Fin 3 → K) : Idx parts → K := fun i => q (row parts[i.1] i.2.1, i.2.2)

end Verif.ParRun
