import Verif.ParRun.Props
import Verif.Par.Sample
import Verif.Extrap.Sample

/-!
# Runs on two processors
-/

namespace Verif.ParRun

open Verif.Flux (Q3 Edge sampleC sqrtQ reflect Method)
open Verif.Extrap (World Geo nb starP Params)
open Verif.Mesh (BDict MeshData buildMesh)
open Verif.Par (Local distribute strip stripTags)

set_option linter.unusedSectionVars false

/-- Lengths that occur below. -/
def len2 (d : ℚ) : ℚ := if d = 36 then 6 else if d = 64 then 8 else 5

/-- Corner `i` of a triangle. -/
def cornerOf (x : Verif.Mesh.Tri) (i : Fin 3) : ℤ := ![x.1, x.2.1, x.2.2] i

/-- A domain on a mesh with given node coordinates, with reflective outer edges. -/
def worldOf (tris : List Verif.Mesh.Tri) (m : MeshData) (xy : ℤ → ℚ × ℚ) (p : Params ℚ) (bed : Fin tris.length → ℚ) :
    World tris.length ℚ :=
  let P : Fin tris.length → Fin 3 → ℚ × ℚ := fun T i => xy (cornerOf tris[T] i)
  let A : Edge tris.length → ℚ × ℚ := fun e => P e.1 (e.2 + 1)
  let B : Edge tris.length → ℚ × ℚ := fun e => P e.1 (e.2 + 2)
  let l : Edge tris.length → ℚ := fun e => len2 (((A e).1 - (B e).1) ^ 2 + ((A e).2 - (B e).2) ^ 2)
  let n : Edge tris.length → ℚ × ℚ := fun e => (((B e).2 - (A e).2) / l e, ((A e).1 - (B e).1) / l e)
  { G := { nbr := nbrOf tris.length m
           cx := fun T => ((P T 0).1 + (P T 1).1 + (P T 2).1) / 3
           cy := fun T => ((P T 0).2 + (P T 1).2 + (P T 2).2) / 3
           ex := fun e => ((A e).1 + (B e).1) / 2
           ey := fun e => ((A e).2 + (B e).2) / 2 }
    p := p
    cs := sampleC
    base := { nbr := nbrOf tris.length m
              bval := fun _ => ⟨0, 0, 0⟩
              qE := fun _ => ⟨0, 0, 0⟩
              bedE := fun _ => 0
              heightE := fun _ => 0
              stageC := fun _ => 0
              bedC := fun _ => 0
              heightC := fun _ => 0
              normal := n
              len := l
              area := fun _ => 12
              radius := fun T => 24 / (l (T, 0) + l (T, 1) + l (T, 2))
              full := fun _ => true
              wall := fun _ => false
              wallElev := fun _ => 0
              wallProps := fun _ => ⟨1, 9 / 10, 95 / 100, 1, 3 / 2⟩
              update := fun _ => true
              allowIncrease := true }
    bed := bed
    bnd := fun _ e q => reflect q (n e).1 (n e).2
    fc := ⟨98 / 10, 1 / 10 ^ 5, fun x => max (sqrtQ x) 0, fun h => h⟩
    fr := fun T => ⟨0, 0, 0, 0, 1 / 100, (P T 0).1, (P T 0).2, (P T 1).1, (P T 1).2, (P T 2).1, (P T 2).2, 0, 0, 0⟩
    sloped := false
    call := fun _ _ => 1
    arr := fun _ _ => ⟨fun _ => 0, fun _ => ⟨0, 0, 0⟩, fun _ => 0, fun _ => 0, 0, fun _ => 0, 0⟩
    first := fun _ _ => true
    dt := fun _ _ => 0
    ghosts := fun q => q
    thin := true }

/-- Counters and arrays of a processor at the start, with rubbish outside the ghosts. -/
def fresh (n : ℕ) : Proc n ℚ :=
  ⟨fun _ _ => 1, fun _ _ => ⟨fun _ => 0, fun _ => ⟨0, 0, 0⟩, fun _ => 0, fun _ => 0, 0, fun _ => 0, 0⟩, fun _ _ => true,
    fun _ e => ⟨17, e.1, 5⟩⟩

theorem worldOf_setting {tris : List Verif.Mesh.Tri} {user : BDict} {m : MeshData} (parts : List Local) (xy : ℤ → ℚ × ℚ)
    (p : Params ℚ) (bed : Fin tris.length → ℚ) (hc : ∀ x ∈ tris, x.1 ≠ x.2.1 ∧ x.2.1 ≠ x.2.2 ∧ x.1 ≠ x.2.2)
    (ho : ∀ x ∈ user, ∀ k ∈ List.range tris.length, ∀ j ∈ List.range 3, m.nbr.neighbours x.1 ≠ (k : ℤ) ∨ m.nbr.neighbourEdges x.1 ≠ (j : ℤ))
    (hb : buildMesh tris user = .ok m)
    (ht : ∀ x ∈ m.boundary, x.2 ≠ "ghost")
    (hn : ∀ e e', (worldOf tris m xy p bed).G.nbr e = some e' →
      (worldOf tris m xy p bed).base.normal e' = (-((worldOf tris m xy p bed).base.normal e).1, -((worldOf tris m xy p bed).base.normal e).2) ∧
      (worldOf tris m xy p bed).base.len e' = (worldOf tris m xy p bed).base.len e)
    (hr : ∀ T, 0 ≤ (worldOf tris m xy p bed).base.radius T) (hv : p.vel = true) (hh : 0 < p.minH) :
    Setting tris user m parts (worldOf tris m xy p bed) (fun p => fresh (parts[p]).tris.length) where
  corners := hc
  outer := by
    intro k e l j tag hmem ha
    have hbn := (Verif.Mesh.buildMesh_ok hb).1
    obtain ⟨e1, e2⟩ := (Verif.Mesh.C05_neighbours_are_adjacent_triangles tris m.nbr hbn _ _ _ _).mpr ha
    obtain ⟨_, _, _, h4, _, h6⟩ := Verif.Mesh.C05_neighbour_symmetry tris m.nbr hbn k e l j e1 e2
    rcases ho _ hmem l (List.mem_range.mpr h4) j (List.mem_range.mpr h6) with h | h
    · exact h e1
    · exact h e2
  tags := by
    intro key h
    obtain ⟨a, b, hab, hx⟩ := List.lookup_eq_some_iff.mp h
    exact ht (key, "ghost") (by rw [hab]; simp) rfl
  nbr := rfl
  normal := fun e e' h => (hn e e' h).1
  len := fun e e' h => (hn e e' h).2
  full := fun _ => rfl
  radius := hr
  eps := by show (0 : ℚ) ≤ 1 / 10 ^ 12; norm_num
  wall := fun _ => rfl
  update := fun _ => rfl
  increase := rfl
  vel := hv
  minH := hh
  phys := ⟨by show (0 : ℚ) ≤ 98 / 10; norm_num, by show (0 : ℚ) < 1 / 10 ^ 5; norm_num, fun _ => le_max_right _ _, fun _ h => h⟩
  marks := fun _ _ _ => by show (0 : ℤ) < 1; norm_num
  marksL := fun _ _ _ _ => by show (0 : ℤ) < 1; norm_num

/-- Nodes of the strip: even ones below, odd ones above. -/
def stripXY (i : ℤ) : ℚ × ℚ := if i % 2 = 0 then (3 * i, 0) else (3 * i, 4)

/-- The strip of six triangles, cut after the second, with three layers: the processors hold five and all six triangles. -/
example : ∃ m parts, buildMesh strip stripTags = .ok m ∧ distribute 2 3 [0, 0, 1, 1, 1, 1] strip m.boundary = .ok parts ∧
    parts.map (fun a => (a.nFull, a.triL2g)) = [(2, [0, 1, 2, 3, 4]), (4, [2, 3, 4, 5, 0, 1])] ∧
    Setting strip stripTags m parts (worldOf strip m stripXY starP (fun _ => 0)) (fun p => fresh (parts[p]).tris.length) :=
  ⟨_, _, rfl, rfl, by decide +kernel, worldOf_setting _ _ _ _ (by decide +kernel) (by decide +kernel) rfl (by decide +kernel) (by decide +kernel)
    (by decide +kernel) rfl (by decide +kernel)⟩

/-- Two 8 by 6 rectangles side by side, each cut by both diagonals. -/
def pair : List Verif.Mesh.Tri := [(0, 1, 6), (1, 4, 6), (4, 3, 6), (3, 0, 6), (1, 2, 7), (2, 5, 7), (5, 4, 7), (4, 1, 7)]

def pairXY (i : ℤ) : ℚ × ℚ := if i < 3 then (8 * i, 0) else if i < 6 then (8 * (i - 3), 6) else (4 + 8 * (i - 6), 3)

def pairTags : BDict := [((3, 2), "left"), ((5, 2), "right")]

/-- One rectangle for each processor, with two layers: seven triangles for each. Triangles have at most one outer edge. -/
example : ∃ m parts, buildMesh pair pairTags = .ok m ∧ distribute 2 2 [0, 0, 0, 0, 1, 1, 1, 1] pair m.boundary = .ok parts ∧
    parts.map (fun a => (a.nFull, a.triL2g)) = [(4, [0, 1, 2, 3, 4, 6, 7]), (4, [4, 5, 6, 7, 0, 1, 2])] ∧
    Setting pair pairTags m parts (worldOf pair m pairXY starP (fun _ => 0)) (fun p => fresh (parts[p]).tris.length) ∧
    (∀ k, nb (worldOf pair m pairXY starP (fun _ => 0)).G k ≠ 2) ∧ starP.betaUhDry ≤ 0 ∧ starP.betaVhDry ≤ 0 :=
  ⟨_, _, rfl, rfl, by decide +kernel, worldOf_setting _ _ _ _ (by decide +kernel) (by decide +kernel) rfl (by decide +kernel) (by decide +kernel)
    (by decide +kernel) rfl (by decide +kernel), by decide +kernel, by decide +kernel, by decide +kernel⟩

/-- The same with the dry betas of the flow algorithms DE0_7 and DE1_7, `shallow_water_domain.py` 772-890. -/
def dryP : Params ℚ := { starP with betaWDry := 1 / 10, betaUhDry := 1 / 10, betaVhDry := 1 / 10 }

instance : NeZero strip.length := ⟨by decide⟩

def stripQ (i : Fin strip.length × Fin 3) : ℚ :=
  ![![1, 0, 0], ![1, -1, 0], ![1 / 10 ^ 6, 0, 0], ![1, 1, 0], ![1, 0, 0], ![1, 0, 0]] i.1 i.2

/-- One Euler step of length `d` on all processors and on one, computed from the edges of the triangle looked at. -/
theorem euler_values {tris : List Verif.Mesh.Tri} {user : BDict} {m : MeshData} {parts : List Local} {N width : ℕ} {epart : List ℕ}
    [NeZero tris.length] {W : World tris.length ℚ} {pr : ∀ p : Fin parts.length, Proc (parts[p]).tris.length ℚ}
    (hu : (user.map Prod.fst).Nodup) (hm : buildMesh tris user = .ok m) (hlen : epart.length = tris.length)
    (h : distribute N width epart tris m.boundary = .ok parts) (S : Setting tris user m parts W pr) (d t : ℚ) (hd : 0 ≤ d)
    (q : Fin tris.length × Fin 3 → ℚ) :
    let v := fun p : Fin parts.length => localWorld W parts[p] (pr p)
    let E := parEnv v width (fun _ => d)
    run (parEnv v width) [.step .euler (fun _ => d)] t (handOut parts q) =
      some (t + d, E.ghosts (E.post (fun i => advanceOwn (v i.1) t d (on (handOut parts q) i.1) i.2))) ∧
    run (serialEnv W width) [.step .euler (fun _ => d)] t q = some (t + d, W.env.post (advanceOwn W t d q)) := by
  intro v E
  have hp : ∀ p, Plain (v p) := fun p => (local_copy hu hm hlen h S p).plain (S.plain hu hm hlen h)
  obtain ⟨a, a1, a2, a3⟩ := stepOf_val E (advAll v) (fun t dt hd q => par_updateAll' hp width _ t dt hd q) .euler t (handOut parts q) hd
  obtain ⟨A, A1, A2, A3⟩ := stepOf_val (serialEnv W width (fun _ => d)) (advance W)
    (fun t dt hd Q => updateAll_eq (S.plain hu hm hlen h) t dt hd Q) .euler t q hd
  constructor
  · have e : advAll v t d (handOut parts q) = fun i => advanceOwn (v i.1) t d (on (handOut parts q) i.1) i.2 := by
      funext i
      unfold advAll
      rw [advance_own (hp i.1)]
    simp only [run, E] at a1 ⊢
    rw [a1]
    simp only
    rw [a2, a3, ← e]
    rfl
  · simp only [run]
    rw [A1]
    simp only
    rw [A2, A3, ← advance_own (S.plain hu hm hlen h)]
    rfl

/-- The mesh of the strip. -/
def stripM : MeshData := localMesh ⟨6, [], strip, stripTags, [], [], [], fun _ => [], fun _ => []⟩

/-- Triangles 0 and 1 on processor 0, two layers. -/
def stripParts : List Local :=
  match distribute 2 2 [0, 0, 1, 1, 1, 1] strip stripM.boundary with
  | .ok a => a
  | .error _ => []

theorem stripM_ok : buildMesh strip stripTags = .ok stripM := rfl

theorem stripParts_ok : distribute 2 2 [0, 0, 1, 1, 1, 1] strip stripM.boundary = .ok stripParts := rfl

abbrev stripW : World strip.length ℚ := worldOf strip stripM stripXY dryP (fun _ => 0)

theorem strip_setting : Setting strip stripTags stripM stripParts stripW (fun p => fresh (stripParts[p]).tris.length) :=
  worldOf_setting _ _ _ _ (by decide +kernel) (by decide +kernel) rfl (by decide +kernel) (by decide +kernel) (by decide +kernel) rfl (by decide +kernel)

/-- Disagreement: with positive dry limiters the default two layers are not enough. Here the second triangle of the strip moves
away from the third, which is dry, and the fourth moves the other way. Processor 0 does not see that the fourth triangle has
a wet neighbour, takes it for isolated and extrapolates other velocities to the edge between the second and third triangle. After one
step its own second triangle has another stage than in the serial run. -/
theorem C69_two_layers_not_enough : ∃ t' q' Q', 
    run (parEnv (fun p => localWorld stripW stripParts[p] (fresh (stripParts[p]).tris.length)) 2)
        [.step .euler (fun _ => 1 / 100)] 0 (handOut stripParts stripQ) = some (t', q') ∧
      run (serialEnv stripW 2) [.step .euler (fun _ => 1 / 100)] 0 stripQ = some (t', Q') ∧
      ∃ p, ∃ k : Tri stripParts[p], k.1 < (stripParts[p]).nFull ∧ q' ⟨p, (k, 0)⟩ ≠ Q' (serialNo stripParts[p] k, 0) := by
  obtain ⟨a, b⟩ := euler_values (by decide) stripM_ok rfl stripParts_ok strip_setting (1 / 100) 0 (by norm_num) stripQ
  refine ⟨_, _, _, a, b, ⟨0, by decide +kernel⟩, ⟨1, by decide +kernel⟩, by decide +kernel, ?_⟩
  decide +kernel

end Verif.ParRun
