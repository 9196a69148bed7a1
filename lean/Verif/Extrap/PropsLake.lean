import Verif.Extrap.PropsTwo
import Verif.Extrap.Step
import Verif.Extrap.Sample

/-!
# C13 for whole time steps, and the limits of C13; C49 triangles with two boundary edges
-/

set_option linter.unusedSectionVars false

namespace Verif.Extrap

open Verif.Flux

variable {K : Type*} [Field K] [LinearOrder K] [IsStrictOrderedRing K] {N : ℕ}

/-- Distribution can be repeated: the second time changes neither centroid nor edge values. -/
theorem distribute_idem (G : Geo N K) (p : Params K) (hv : p.vel = true) (hm : 0 < p.minH) (area : Fin N → K) (c : Cent N K) :
    distribute G p area (distribute G p area c).1 = distribute G p area c := by
  have hstage : ∀ k, c.bed k ≤ (protect p.minH area c).1.stage k := fun k => (C15_depth p.minH hm.le area c k).2.1
  set c1 := (protect p.minH area c).1 with hc1
  have hc1b : c1.bed = c.bed := rfl
  set c2 := (distribute G p area c).1 with hc2
  have es : c2.stage = c1.stage := rfl
  have eb : c2.bed = c1.bed := rfl
  have exm : c2.xm = restored G p c1 c1.xm := rfl
  have eym : c2.ym = restored G p c1 c1.ym := rfl
  have eh0 : c2.h0 = height p c1 := rfl
  have hp1 : (protect p.minH area c2).1.stage = c2.stage := by
    funext k
    exact (C15_depth p.minH hm.le area c2 k).2.2.1 (by rw [es, eb, hc1b]; exact hstage k)
  have hsmall : ∀ k, c2.stage k - c2.bed k < p.minH → c2.xm k = 0 ∧ c2.ym k = 0 := by
    intro k hk
    have hh : ¬ height p c1 k > p.minH := by
      simp only [height, hv, if_true]
      rw [es, eb] at hk
      exact not_lt.2 (max_le hk.le hm.le)
    rw [exm, eym]
    unfold restored
    simp only [hv, if_true, hh, if_false, ite_self, and_self]
  have hp2 : ∀ k, (protect p.minH area c2).1.xm k = c2.xm k ∧ (protect p.minH area c2).1.ym k = c2.ym k := by
    intro k
    by_cases h : c2.stage k - c2.bed k < p.minH
    · have a := (C15_momentum p.minH area c2 k).1 h
      have b := hsmall k h
      exact ⟨a.1.trans b.1.symm, a.2.trans b.2.symm⟩
    · exact (C15_momentum p.minH area c2 k).2 (not_lt.1 h)
  have hpp : (protect p.minH area c2).1 = c2 := by
    have h1 : (protect p.minH area c2).1.xm = c2.xm := funext fun k => (hp2 k).1
    have h2 : (protect p.minH area c2).1.ym = c2.ym := funext fun k => (hp2 k).2
    calc (protect p.minH area c2).1 = ⟨(protect p.minH area c2).1.stage, c2.bed, (protect p.minH area c2).1.xm,
            (protect p.minH area c2).1.ym, c2.h0⟩ := rfl
      _ = c2 := by rw [hp1, h1, h2]
  have hh : height p c2 = height p c1 := by
    funext k
    simp only [height, hv, if_true, es, eb]
  have hiso : isolated G p c2 = isolated G p c1 := by
    funext k
    simp only [isolated, hh]
  have hcar : ∀ m : Fin N → K, carried G p c2 (restored G p c1 m) = carried G p c1 m := by
    intro m
    funext k
    simp only [carried, restored, hiso, hh, hv, if_true]
    split_ifs <;> rfl
  have hres : ∀ m : Fin N → K, restored G p c2 (restored G p c1 m) = restored G p c1 m := by
    intro m
    funext k
    simp only [restored, hiso, hh, hv, if_true]
    split_ifs <;> rfl
  have hf : hfactor G p c2 = hfactor G p c1 := by
    funext k
    unfold hfactor
    simp only [hh]
  have hE : extrapolate G p c2 = extrapolate G p c1 := by
    unfold extrapolate
    rw [hf, exm, eym, es, hh, hcar, hcar]
  have hd : distribute G p area c2 = ({ c2 with xm := restored G p c2 c2.xm, ym := restored G p c2 c2.ym, h0 := height p c2 },
      extrapolate G p c2) := by
    conv_lhs => unfold distribute
    simp only [hpp]
  have hd1 : distribute G p area c = (c2, extrapolate G p c1) := rfl
  rw [hd, hd1, hE, hh, ← eh0, exm, eym, hres, hres, ← exm, ← eym]

theorem lake_protect (G : Geo N K) (p : Params K) (hv : p.vel = true) (hm : 0 < p.minH) (area : Fin N → K) (W : K) (c : Cent N K)
    (hL : Lake W c) : distribute G p area c = ({ c with h0 := height p c }, extrapolate G p c) := by
  have h1 : (protect p.minH area c).1 = c := by
    have a : (protect p.minH area c).1.stage = c.stage := by
      funext k
      exact (C15_depth p.minH hm.le area c k).2.2.1 (by rw [hL.stage]; exact le_max_right _ _)
    have b : ∀ k, (protect p.minH area c).1.xm k = c.xm k ∧ (protect p.minH area c).1.ym k = c.ym k := by
      intro k
      by_cases h : c.stage k - c.bed k < p.minH
      · have := (C15_momentum p.minH area c k).1 h
        rw [hL.xm, hL.ym]; exact this
      · exact (C15_momentum p.minH area c k).2 (not_lt.1 h)
    have h1 : (protect p.minH area c).1.xm = c.xm := funext fun k => (b k).1
    have h2 : (protect p.minH area c).1.ym = c.ym := funext fun k => (b k).2
    calc (protect p.minH area c).1 = ⟨(protect p.minH area c).1.stage, c.bed, (protect p.minH area c).1.xm,
            (protect p.minH area c).1.ym, c.h0⟩ := rfl
      _ = c := by rw [a, h1, h2]
  unfold distribute
  simp only [h1]
  have hx : restored G p c c.xm = c.xm := by
    funext k; unfold restored; rw [hL.xm]; split_ifs <;> rfl
  have hy : restored G p c c.ym = c.ym := by
    funext k; unfold restored; rw [hL.ym]; split_ifs <;> rfl
  rw [hx, hy]

/-- The repair of negative depths leaves a lake at rest alone. -/
theorem lake_fixNegative (full : Fin N → Bool) (W : K) (c : Cent N K) (hL : Lake W c) :
    (fixNegative full c).2 = 0 ∧ (fixNegative full c).1 = c := by
  obtain ⟨h1, _, h3⟩ := C15_fix_negative full c
  have hno : ∀ k, ¬ (full k = true ∧ c.stage k < c.bed k) := by
    rintro k ⟨_, h⟩
    rw [hL.stage] at h
    exact absurd h (not_lt.2 (le_max_right _ _))
  refine ⟨?_, ?_⟩
  swap
  · calc (fixNegative full c).1 = ⟨(fixNegative full c).1.stage, c.bed, (fixNegative full c).1.xm, (fixNegative full c).1.ym, c.h0⟩ := rfl
      _ = c := by
        rw [funext fun k => ((h1 k).2 (hno k)).1, funext fun k => ((h1 k).2 (hno k)).2.1, funext fun k => ((h1 k).2 (hno k)).2.2]
  rw [h3, Finset.card_eq_zero, Finset.filter_eq_empty_iff]
  exact fun k _ => hno k

/-- Conditions on the world under which lakes of level `W` stay at rest. -/
structure Calm (w : World N K) (W : K) (q : Fin N × Fin 3 → K) : Prop where
  vel : w.p.vel = true
  minH : 0 < w.p.minH
  dry : ShoresOk w.p W w.G w.bed
  eps : 1 / 10 ^ 100 ≤ w.cs.eps
  corners : CornersOk W w.G w.bed
  /-- the boundary repeats the level of still water -/
  bnd : ∀ t e s, w.bnd t e ⟨s, 0, 0⟩ = ⟨s, 0, 0⟩
  noWall : ∀ e, w.G.nbr e = none → w.base.wall e = false
  closed : Closed w.base
  upd : ∀ e, w.base.update e = true
  ghosts : w.ghosts q = q
  /-- call numbers grow -/
  marks : ∀ t e, (w.arr t q).mark e < w.call t q
  conf : ∀ t, Conforming (w.dom t q)
  heads : ∀ t e, HeadsOk (edgeIn (w.dom t q) e (wallRank (w.dom t q) e - 1))

theorem state_cent (bed : Fin N → K) (q : Fin N × Fin 3 → K) (h : Fin N → K) : state { cent bed q with h0 := h } = q := by
  funext i
  obtain ⟨k, j⟩ := i
  have : ∀ j : Fin 3, j = 0 ∨ j = 1 ∨ j = 2 := by decide
  rcases this j with rfl | rfl | rfl <;> rfl

theorem updateAll_zero {ι : Type*} [Fintype ι] (dt : K) (q e s : ι → K) (he : ∀ i, e i = 0) (hs : ∀ i, s i = 0) :
    Verif.Quantity.updateAll dt q e s = some q := by
  unfold Verif.Quantity.updateAll
  simp [he, hs]

theorem lake_env (w : World N K) (W : K) (q : Fin N × Fin 3 → K) (hL : Lake W (cent w.bed q)) (hC : Calm w W q) :
    w.env.distribute q = q ∧ (∀ t i, w.env.expl t q i = 0) ∧ ∀ t i, w.env.semi t q i = 0 := by
  have hd := lake_protect w.G w.p hC.vel hC.minH w.base.area W _ hL
  refine ⟨?_, ?_, ?_⟩
  · change state (distribute w.G w.p w.base.area (cent w.bed q)).1 = q
    rw [hd]
    exact state_cent w.bed q _
  · intro t i
    have hdom : w.dom t q = lakeDom w.G w.p (cent w.bed q) w.base
        (fun e => w.bnd t e ⟨(extrapolate w.G w.p (cent w.bed q)).stage e, (extrapolate w.G w.p (cent w.bed q)).xm e,
          (extrapolate w.G w.p (cent w.bed q)).ym e⟩) := by
      unfold World.dom lakeDom
      simp only [hd]
    have hc := hC.conf t
    have hh := hC.heads t
    rw [hdom] at hc hh
    have key := C13_lake_at_rest w.G w.p (cent w.bed q) W w.cs hC.eps w.base _ hL (Or.inl hC.vel) hC.minH hC.dry hC.corners
      (fun e _ => by
        obtain ⟨a, b⟩ := lake_mom w.G w.p (cent w.bed q) W hL e
        rw [a, b]
        exact hC.bnd t e _) hC.noWall hc hC.closed hh hC.upd (w.call t q) (w.first t q) 0 (w.arr t q) (hC.marks t) i.1
    rw [← hdom] at key
    change ![((computeFluxes w.cs (w.dom t q) (w.call t q) (w.first t q) 0 (w.arr t q)).upd i.1).w,
      ((computeFluxes w.cs (w.dom t q) (w.call t q) (w.first t q) 0 (w.arr t q)).upd i.1).x,
      ((computeFluxes w.cs (w.dom t q) (w.call t q) (w.first t q) 0 (w.arr t q)).upd i.1).y] i.2 = 0
    rw [key]
    have : ∀ j : Fin 3, j = 0 ∨ j = 1 ∨ j = 2 := by decide
    rcases this i.2 with h | h | h <;> rw [h] <;> rfl
  · intro t i
    have hx : q (i.1, 1) = 0 := hL.xm i.1
    have hy : q (i.1, 2) = 0 := hL.ym i.1
    have hf : Friction.friction w.fc w.sloped (w.cell q i.1) (0, 0) = (0, 0) := by
      unfold Friction.friction Friction.sloped Friction.flat World.cell
      simp only [hx, hy, mul_zero, add_zero]
      split_ifs <;> rfl
    change ![0, (Friction.friction w.fc w.sloped (w.cell q i.1) (0, 0)).1,
      (Friction.friction w.fc w.sloped (w.cell q i.1) (0, 0)).2] i.2 = 0
    rw [hf]
    have : ∀ j : Fin 3, j = 0 ∨ j = 1 ∨ j = 2 := by decide
    rcases this i.2 with h | h | h <;> rw [h] <;> rfl

/-- C13: any sequence of internal steps by any of the three methods, whatever timesteps are chosen, leaves a lake at rest
exactly as it was. -/
theorem C13_lake_stays (w : World N K) (W : K) (q : Fin N × Fin 3 → K) (hL : Lake W (cent w.bed q)) (hC : Calm w W q)
    (ms : List Method) (t : K) : w.run ms t q = some q := by
  obtain ⟨hd, he, hs⟩ := lake_env w W q hL hC
  have hg : w.env.ghosts q = q := hC.ghosts
  have hpo : w.env.post q = q := by
    change state (fixNegative w.base.full (cent w.bed q)).1 = q
    rw [(lake_fixNegative w.base.full W _ hL).2]
    exact state_cent w.bed q _
  have hu : ∀ t dt, Verif.Quantity.updateAll dt q (w.env.expl t q) (w.env.semi t q) = some q :=
    fun t dt => updateAll_zero dt q _ _ (he t) (hs t)
  have hstep : ∀ m t, ∃ r, stepOf m w.env t q = some r ∧ r.q = q := by
    intro m t
    cases m with
    | euler =>
      simp only [stepOf, Verif.Quantity.eulerStep, hd, hu, hpo]
      exact ⟨_, rfl, rfl⟩
    | rk2 =>
      simp only [stepOf, Verif.Quantity.rk2Step, hd, hu, hg, hpo, ite_self]
      refine ⟨_, rfl, ?_⟩
      funext i
      simp only [Verif.Quantity.saxpy]
      ring
    | rk3 =>
      have hsx : Verif.Quantity.saxpy (1 / 4) (3 / 4) q q = q := by
        funext i
        simp only [Verif.Quantity.saxpy]
        ring
      simp only [stepOf, Verif.Quantity.rk3Step, hd, hu, hg, hpo, hsx]
      refine ⟨_, rfl, ?_⟩
      funext i
      simp only [Verif.Quantity.saxpy]
      ring
  induction ms generalizing t with
  | nil => rfl
  | cons m ms ih =>
    obtain ⟨r, h1, h2⟩ := hstep m t
    simp only [World.run, h1, h2]
    exact ih _

/-- Reflective boundaries repeat the level of still water. -/
theorem reflect_still (s n1 n2 : K) : reflect (⟨s, 0, 0⟩ : Q3 K) n1 n2 = ⟨s, 0, 0⟩ := by
  simp [reflect]

/-! ### The hypotheses can be met -/

def starWorld : World 4 ℚ :=
  { G := starG, p := starP, cs := sampleC, base := starBase, bed := starLake.bed
    bnd := fun _ e q => reflect q (starNormal e).1 (starNormal e).2
    fc := ⟨98 / 10, 1 / 10 ^ 5, fun x => x, fun x => x⟩
    fr := fun _ => ⟨0, 0, 0, 0, 1 / 30, 0, 0, 1, 0, 0, 1, 0, 0, 0⟩
    sloped := true
    call := fun _ _ => 1
    arr := fun _ _ => ⟨fun _ => 0, fun _ => ⟨0, 0, 0⟩, fun _ => 0, fun _ => 0, 0, fun _ => 0, 0⟩
    first := fun _ _ => true
    dt := fun _ _ => 1 / 10
    ghosts := fun q => q
    thin := true }

def starState : Fin 4 × Fin 3 → ℚ := state starLake

theorem starLake_lake : Lake 1 (cent starWorld.bed starState) where
  stage := by decide +kernel
  xm := by decide +kernel
  ym := by decide +kernel

theorem star_conf (D : Dom 4 ℚ) (h1 : D.nbr = starNbr) (h2 : D.normal = starNormal) (h3 : D.len = starBase.len)
    (h4 : D.wall = starBase.wall) (h5 : D.wallElev = starBase.wallElev) (h6 : D.wallProps = starBase.wallProps) :
    Conforming D where
  symm := by
    rw [h1]
    have h : ∀ e m : Edge 4, starNbr e = some m → starNbr m = some e ∧ m ≠ e := by decide
    exact h
  normal := by
    rw [h1, h2]
    have h : ∀ e m : Edge 4, starNbr e = some m → starNormal m = (-(starNormal e).1, -(starNormal e).2) := by decide +kernel
    exact h
  len := by
    rw [h1, h3]
    have h : ∀ e m : Edge 4, starNbr e = some m → starBase.len m = starBase.len e := by decide +kernel
    exact h
  wall := by
    rw [h1, h4]
    have h : ∀ e m : Edge 4, starNbr e = some m → starBase.wall m = starBase.wall e := by decide +kernel
    exact h
  wallElev := by
    rw [h5]
    intro _ _ _ _
    rfl
  wallProps := by
    rw [h6]
    intro _ _ _ _
    rfl

theorem starCalm : Calm starWorld 1 starState where
  vel := rfl
  minH := by decide +kernel
  dry := Or.inl rfl
  eps := by decide +kernel
  corners := by
    intro k i m h
    exfalso
    revert h
    have : ∀ k, boundaryEdges starNbr k ≠ 2 := by unfold boundaryEdges; decide
    exact this k
  bnd := fun _ _ _ => reflect_still _ _ _
  noWall := by decide +kernel
  closed := by unfold Closed; decide +kernel
  upd := fun _ => rfl
  ghosts := rfl
  marks := fun _ _ => (by decide : (0 : ℤ) < 1)
  conf := fun t => star_conf _ rfl rfl rfl rfl rfl rfl
  heads := by
    intro t e
    have : ∀ e, HeadsOk (edgeIn (starWorld.dom 0 starState) e (wallRank (starWorld.dom 0 starState) e - 1)) := by
      decide +kernel
    exact this e

/-- C13 applies to a lake with an island and a submerged river wall. -/
example (ms : List Method) (t : ℚ) : starWorld.run ms t starState = some starState :=
  C13_lake_stays starWorld 1 starState starLake_lake starCalm ms t

/-! ### Where lakes at rest start to move -/

/-- With a limiter parameter above one at dry triangles, as after `domain.set_beta(1.5)`, a lake starts to move: water runs
into a triangle whose bed is above the surface. -/
theorem C13_large_beta_breaks_lake :
    ∃ c : Cent 4 ℚ, Lake 1 c ∧ ∃ k, (computeFluxes sampleC (lakeDom starG { starP with betaW := 3 / 2, betaWDry := 3 / 2 } c
        { starBase with wall := fun _ => false }
        (fun e => ⟨(extrapolate starG { starP with betaW := 3 / 2, betaWDry := 3 / 2 } c).stage e, 0, 0⟩)) 1 true 0
          ⟨fun _ => 0, fun _ => ⟨0, 0, 0⟩, fun _ => 0, fun _ => 0, 0, fun _ => 0, 0⟩).upd k ≠ ⟨0, 0, 0⟩ :=
  ⟨⟨![2, 1, 1, 10], ![2, 0, 0, 10], fun _ => 0, fun _ => 0, fun _ => 0⟩,
    ⟨by decide +kernel, by decide +kernel, by decide +kernel⟩, 0, by decide +kernel⟩

/-- With a river wall on boundary edges a lake over an uneven bed starts to move, although the boundary is reflective. -/
theorem C13_boundary_wall_breaks_lake :
    ∃ c : Cent 4 ℚ, Lake 1 c ∧ ∃ k, (computeFluxes sampleC (lakeDom starG starP c
        { starBase with wall := fun e => decide (e.2 = 0) }
        (fun e => reflect ⟨(extrapolate starG starP c).stage e, 0, 0⟩ (starNormal e).1 (starNormal e).2)) 1 true 0
          ⟨fun _ => 0, fun _ => ⟨0, 0, 0⟩, fun _ => 0, fun _ => 0, 0, fun _ => 0, 0⟩).upd k ≠ ⟨0, 0, 0⟩ :=
  ⟨⟨![1, 1, 1, 1], ![0, 3 / 10, 1 / 2, 1 / 4], fun _ => 0, fun _ => 0, fun _ => 0⟩,
    ⟨by decide +kernel, by decide +kernel, by decide +kernel⟩, 1, by decide +kernel⟩

/-! ## C49 -/

theorem corner_near (G : Geo N K) (hC : Centred G) (q : Fin N → K) (beta : K) (hb : 0 ≤ beta) (k k1 : Fin N) (i : Fin 3) :
    |extrapCorner G q beta k k1 i - q k| ≤ 2 * tiny := by
  have ht : (0 : K) < tiny := tiny_pos
  unfold extrapCorner
  simp only [add_sub_cancel_left]
  generalize hd : (fun i => (q k1 - q k) * (1 / ((G.cx k1 - G.cx k) * (G.cx k1 - G.cx k) + (G.cy k1 - G.cy k) * (G.cy k1 - G.cy k)) *
    (G.cx k1 - G.cx k)) * (G.ex (k, i) - G.cx k) + (q k1 - q k) * (1 / ((G.cx k1 - G.cx k) * (G.cx k1 - G.cx k) +
    (G.cy k1 - G.cy k) * (G.cy k1 - G.cy k)) * (G.cy k1 - G.cy k)) * (G.ey (k, i) - G.cy k)) = d
  have hsum : d 0 + d 1 + d 2 = 0 := by
    obtain ⟨c1, c2⟩ := hC k
    rw [Fin.sum_univ_three] at c1 c2
    rw [← hd]
    simp only
    linear_combination ((q k1 - q k) * (1 / ((G.cx k1 - G.cx k) * (G.cx k1 - G.cx k) + (G.cy k1 - G.cy k) * (G.cy k1 - G.cy k)) *
      (G.cx k1 - G.cx k))) * c1 + ((q k1 - q k) * (1 / ((G.cx k1 - G.cx k) * (G.cx k1 - G.cx k) +
      (G.cy k1 - G.cy k) * (G.cy k1 - G.cy k)) * (G.cy k1 - G.cy k))) * c2
  have h3 : ∀ i : Fin 3, i = 0 ∨ i = 1 ∨ i = 2 := by decide
  have fin : ∀ phi : K, 0 ≤ phi → phi ≤ 1 → |d i| ≤ 2 * tiny → |d i * phi| ≤ 2 * tiny := by
    intro phi p0 p1 hdi
    rw [abs_mul, abs_of_nonneg p0]
    exact (mul_le_of_le_one_right (abs_nonneg _) p1).trans hdi
  by_cases hc : q k1 - q k ≥ 0
  · simp only [hc, if_true]
    by_cases hz : ∃ i, d i < -tiny
    · obtain ⟨i0, h0⟩ := hz
      unfold limit
      rw [limPhi_zero d 0 (q k1 - q k) beta (le_refl _) hc ⟨i0, Or.inl ⟨h0, rfl⟩⟩, mul_zero, abs_zero]
      positivity
    · push Not at hz
      obtain ⟨p0, p1, _⟩ := limPhi_spec d 0 (q k1 - q k) beta (le_refl _) hc hb
      refine fin _ p0 p1 (abs_le.2 ?_)
      rcases h3 i with rfl | rfl | rfl <;> constructor <;> linarith [hz 0, hz 1, hz 2]
  · simp only [hc, if_false]
    have hc' := (not_le.1 hc).le
    by_cases hz : ∃ i, d i > tiny
    · obtain ⟨i0, h0⟩ := hz
      unfold limit
      rw [limPhi_zero d (q k1 - q k) 0 beta hc' (le_refl _) ⟨i0, Or.inr ⟨h0, rfl⟩⟩, mul_zero, abs_zero]
      positivity
    · push Not at hz
      obtain ⟨p0, p1, _⟩ := limPhi_spec d (q k1 - q k) 0 beta hc' (le_refl _) hb
      refine fin _ p0 p1 (abs_le.2 ?_)
      rcases h3 i with rfl | rfl | rfl <;> constructor <;> linarith [hz 0, hz 1, hz 2]

/-- C49: on a triangle with two boundary edges the reconstruction of level and depth is constant (to `2e-100`), whatever the
limiter parameter: the scheme is first order there. -/
theorem C49_corners_first_order (G : Geo N K) (hC : Centred G) (p : Params K) (hb : 0 ≤ p.betaW) (c : Cent N K) (k : Fin N)
    (hn : 2 ≤ boundaryEdges G.nbr k) (i : Fin 3) :
    |(extrapolate G p c).stage (k, i) - c.stage k| ≤ 2 / 10 ^ 100 ∧
    (p.vel = true → |(extrapolate G p c).height (k, i) - max (c.stage k - c.bed k) 0| ≤ 2 / 10 ^ 100) := by
  have key : ∀ (q : Fin N → K) (beta : K), |extrap G q beta p.betaW k i - q k| ≤ 2 / 10 ^ 100 := by
    intro q beta
    have e : (2 : K) / 10 ^ 100 = 2 * tiny := by unfold tiny; ring
    have ht : (0 : K) < tiny := tiny_pos
    rw [e]
    rw [← nb_eq] at hn
    unfold extrap
    split_ifs with h1 h2 h3
    · rw [sub_self, abs_zero]; positivity
    · omega
    · omega
    · cases inner G k with
      | none => simp only [sub_self, abs_zero]; positivity
      | some k1 => exact corner_near G hC q p.betaW hb k k1 i
  refine ⟨key _ _, fun hv => ?_⟩
  have := key (height p c) (betaTmp p.betaWDry p.betaW (hfactor G p c k))
  have e : height p c k = max (c.stage k - c.bed k) 0 := by simp [height, hv]
  rw [e] at this
  exact this

/-- Both triangles of a rectangle cut in two are such corners. -/
example : Centred cutG ∧ (∀ k, boundaryEdges cutG.nbr k = 2) ∧ 0 ≤ starP.betaW := by
  refine ⟨?_, ?_, ?_⟩
  · unfold Centred; decide +kernel
  · unfold boundaryEdges; decide +kernel
  · decide +kernel

end Verif.Extrap
