import Verif.Flux.Swap
import Verif.Quantity.Props

/-!
# Flux computation: mass balance, boundary flux integral, reflective walls, timestep, parallel version
-/

set_option linter.unusedSectionVars false

namespace Verif.Flux

open Verif.Quantity (Env eulerStep rk2Step rk3Step StepResult AppliedRate)

variable {K : Type*} [Field K] [LinearOrder K] [IsStrictOrderedRing K] {N : ℕ}

/-! ## C11 -/

theorem runCalls_balanced (c : Consts K) (nbr : Edge N → Option (Edge N)) (hS : Symmetric nbr) (s0 : FSt N K)
    (h0 : ∀ e, s0.work e = ⟨0, 0, 0⟩) (L : List (FluxCall N K)) (hL : ∀ x ∈ L, x.D.nbr = nbr) :
    Balanced nbr (runCalls c s0 L).work := by
  unfold runCalls
  have : ∀ (L : List (FluxCall N K)) (s : FSt N K), Balanced nbr s.work → (∀ x ∈ L, x.D.nbr = nbr) →
      Balanced nbr (L.foldl (fun s x => (computeFluxes c x.D x.call x.first x.dt s).st) s).work := by
    intro L
    induction L with
    | nil => intro s h _; exact h
    | cons x xs ih =>
      intro s h hL
      refine ih _ ?_ (fun y hy => hL y (List.mem_cons_of_mem _ hy))
      have hx := hL x (by simp)
      rw [← hx] at h hS ⊢
      exact computeFluxes_balanced c x.D hS x.call x.first x.dt s h
  exact this L s0 (fun e m _ => by rw [h0, h0]; simp) hL

/-- C11: after any history of flux computations on a mesh whose neighbours are mutual (with any data, any selection of
edges to recompute, any river walls), the stage updates of the next computation change the volume owned by this process at
exactly the rate reported in `boundary_flux_sum`: nothing is created or lost at interior edges. -/
theorem C11_mass_balance (c : Consts K) (nbr : Edge N → Option (Edge N)) (hS : Symmetric nbr) (s0 : FSt N K)
    (h0 : ∀ e, s0.work e = ⟨0, 0, 0⟩) (L : List (FluxCall N K)) (hL : ∀ x ∈ L, x.D.nbr = nbr)
    (x : FluxCall N K) (hx : x.D.nbr = nbr) (hA : ∀ k, x.D.area k ≠ 0) :
    let r := computeFluxes c x.D x.call x.first x.dt (runCalls c s0 L)
    volumeRate x.D r.upd = r.bsum := by
  have hb := runCalls_balanced c nbr hS s0 h0 L hL
  rw [← hx] at hb hS
  exact balance_sum x.D hS _ (computeFluxes_balanced c x.D hS x.call x.first x.dt _ hb) hA _

/-- C11 for the parallel version: the same balance, when the geometry of both sides of every edge agrees. -/
theorem C11_mass_balance_parallel (c : Consts K) (D : Dom N K) (hC : Conforming D)
    (hH : ∀ e, HeadsOk (edgeIn D e (wallRank D e - 1))) (hA : ∀ k, D.area k ≠ 0) (first : Bool) (dt : K) :
    volumeRate D (computeFluxesMp c D first dt).1 = (computeFluxesMp c D first dt).2.1 := by
  unfold computeFluxesMp
  refine balance_sum D hC.symm _ ?_ hA _
  intro e m h
  have := own_swap c D hC hH h
  unfold own at this
  simp only [edgeComputeMp_eq, this, Q3.neg]

/-! ## C12 -/

section C12

variable (env : Env K (Fin N × Fin 3)) (c : Consts K) (dom : K → (Fin N × Fin 3 → K) → Dom N K)
  (arr : K → (Fin N × Fin 3 → K) → FSt N K) (call : K → (Fin N × Fin 3 → K) → ℤ) (first : K → Bool)
  (full : Fin N → Bool) (area bed : Fin N → K)

/-- The flux computation made at time `t` in state `p`. -/
def fluxAt (t : K) (p : Fin N × Fin 3 → K) : FluxRes N K := computeFluxes c (dom t p) (call t p) (first t) 0 (arr t p)

/-- The only explicit stage update comes from the fluxes, there is no implicit one, and the arrays carried over from
earlier calls are balanced (`C11` shows they always are). -/
structure OnlyFluxes : Prop where
  expl : ∀ t p k, env.expl t p (k, 0) = ((fluxAt c dom arr call first t p).upd k).w
  semi : ∀ t p k, env.semi t p (k, 0) = 0
  symm : ∀ t p, Symmetric (dom t p).nbr
  bal : ∀ t p, Balanced (dom t p).nbr (arr t p).work
  fullEq : ∀ t p, (dom t p).full = full
  areaEq : ∀ t p, (dom t p).area = area
  areaNe : ∀ k, area k ≠ 0

variable {env c dom arr call first full area}

/-- Volume is affine in the state. -/
theorem volume_sub (p q : Fin N × Fin 3 → K) :
    volume full area bed p - volume full area bed q = ∑ k, if full k then area k * (p (k, 0) - q (k, 0)) else 0 := by
  unfold volume
  rw [← Finset.sum_sub_distrib]
  refine Finset.sum_congr rfl (fun k _ => ?_)
  split_ifs <;> ring

theorem volume_comb (a b : K) (hab : a + b = 1) (p q r : Fin N × Fin 3 → K) (h : ∀ i, r i = a * p i + b * q i) :
    volume full area bed r = a * volume full area bed p + b * volume full area bed q := by
  have hb : b = 1 - a := by linear_combination hab
  unfold volume
  rw [Finset.mul_sum, Finset.mul_sum, ← Finset.sum_add_distrib]
  refine Finset.sum_congr rfl (fun k _ => ?_)
  rw [h, hb]
  split_ifs <;> ring

/-- One update changes the volume by `dt` times the reported boundary flux. -/
theorem update_volume (h : OnlyFluxes env c dom arr call first full area) (t dt : K) (p q' : Fin N × Fin 3 → K)
    (hu : Verif.Quantity.updateAll dt p (env.expl t p) (env.semi t p) = some q') :
    volume full area bed q' = volume full area bed p + dt * (fluxAt c dom arr call first t p).bsum := by
  have e := balance_sum (dom t p) (h.symm t p) (fluxAt c dom arr call first t p).st.work
    (computeFluxes_balanced c _ (h.symm t p) _ _ _ _ (h.bal t p)) (by rw [h.areaEq]; exact h.areaNe)
    (fluxAt c dom arr call first t p).st.pg
  have e2 : (fluxAt c dom arr call first t p).bsum = ∑ e, if isOuter (dom t p) e then
      ((fluxAt c dom arr call first t p).st.work e).w else 0 := rfl
  rw [← sub_eq_iff_eq_add', volume_sub, e2, ← e]
  unfold volumeRate
  rw [h.fullEq, h.areaEq, Finset.mul_sum]
  refine Finset.sum_congr rfl (fun k _ => ?_)
  have hq : q' (k, 0) = p (k, 0) + dt * ((fluxAt c dom arr call first t p).upd k).w := by
    unfold Verif.Quantity.updateAll at hu
    simp only at hu
    split_ifs at hu
    cases hu
    simp only
    rw [h.expl, h.semi]
    simp
  rw [hq]
  split_ifs
  · change area k * (p (k, 0) + dt * ((fluxAt c dom arr call first t p).upd k).w - p (k, 0)) =
      dt * (area k * ((fluxAt c dom arr call first t p).upd k).w)
    ring
  · ring

variable (c dom arr call first full area)

/-- Boundary fluxes recorded during a step (`boundary_flux_sum`, one slot per flux computation) and the volume added by
depth protection, repair of negative depths and ghost exchange between the updates, weighted as the step weights them. Follows the order of operations
of `generic_domain.py` 1914-2176. -/
def record (m : Method) (env : Env K (Fin N × Fin 3)) (t : K) (q : Fin N × Fin 3 → K) : Option ((Fin 3 → K) × K) :=
  let V := volume full area bed
  let S := fun t p => (fluxAt c dom arr call first t p).bsum
  let p0 := env.distribute q
  let dt := env.dt t p0
  match m with
  | .euler =>
    match Verif.Quantity.updateAll dt p0 (env.expl t p0) (env.semi t p0) with
    | none => none
    | some u1 => some (![S t p0, 0, 0], (V p0 - V q) + (V (env.post u1) - V u1))
  | .rk2 =>
    match Verif.Quantity.updateAll dt p0 (env.expl t p0) (env.semi t p0) with
    | none => none
    | some u1 =>
      let q1 := env.post u1
      let p1 := env.distribute (if env.ghostLayerThin then env.ghosts q1 else q1)
      match Verif.Quantity.updateAll dt p1 (env.expl (t + dt) p1) (env.semi (t + dt) p1) with
      | none => none
      | some u2 =>
        some (![S t p0, S (t + dt) p1, 0], 1 / 2 * ((V p0 - V q) + (V p1 - V u1) + (V (env.post u2) - V u2)))
  | .rk3 =>
    match Verif.Quantity.updateAll dt p0 (env.expl t p0) (env.semi t p0) with
    | none => none
    | some u1 =>
      let p1 := env.distribute (env.ghosts (env.post u1))
      match Verif.Quantity.updateAll dt p1 (env.expl (t + dt) p1) (env.semi (t + dt) p1) with
      | none => none
      | some u2 =>
        let qh := Verif.Quantity.saxpy (1 / 4) (3 / 4) (env.post u2) q
        let p2 := env.distribute (env.ghosts qh)
        match Verif.Quantity.updateAll dt p2 (env.expl (t + dt * (1 / 2)) p2) (env.semi (t + dt * (1 / 2)) p2) with
        | none => none
        | some u3 =>
          some (![S t p0, S (t + dt) p1, S (t + dt * (1 / 2)) p2],
            1 / 6 * ((V p0 - V q) + (V p1 - V u1) + (V (env.post u2) - V u2)) +
              2 / 3 * ((V p2 - V qh) + (V (env.post u3) - V u3)))

/-- One internal step by the chosen method. -/
def stepOf {ι : Type*} [Fintype ι] (m : Method) (env : Env K ι) (t : K) (q : ι → K) : Option (StepResult K ι) :=
  match m with
  | .euler => eulerStep env t q
  | .rk2 => rk2Step env t q
  | .rk3 => rk3Step env t q

/-- State of a run: time, values, boundary flux integral, volume added by protection. -/
structure Acc (N : ℕ) (K : Type*) where
  t : K
  q : Fin N × Fin 3 → K
  integral : K
  added : K

/-- A run of internal steps, each followed by the boundary flux integral operator. -/
def runSteps (env : Env K (Fin N × Fin 3)) : List Method → Acc N K → Option (Acc N K)
  | [], a => some a
  | m :: ms, a =>
    match stepOf m env a.t a.q, record c dom arr call first full area bed m env a.t a.q with
    | some r, some (S, v) => runSteps env ms ⟨r.time, r.q, fluxIntegral m a.integral r.dt S, a.added + v⟩
    | _, _ => none

variable {c dom arr call first full area}

/-- C12, one step: the volume changes by what the boundary flux integral grows by, plus what protection and repair added. -/
theorem C12_step (h : OnlyFluxes env c dom arr call first full area) (m : Method) (t : K) (q : Fin N × Fin 3 → K)
    (r : StepResult K (Fin N × Fin 3)) (hr : stepOf m env t q = some r) (I : K) :
    ∃ S v, record c dom arr call first full area bed m env t q = some (S, v) ∧
      volume full area bed r.q - volume full area bed q = (fluxIntegral m I r.dt S - I) + v := by
  cases m with
  | euler =>
    simp only [stepOf, eulerStep] at hr
    unfold record
    simp only
    cases h1 : Verif.Quantity.updateAll (env.dt t (env.distribute q)) (env.distribute q) (env.expl t (env.distribute q))
        (env.semi t (env.distribute q)) with
    | none => rw [h1] at hr; cases hr
    | some q1 =>
      rw [h1] at hr
      cases hr
      refine ⟨_, _, rfl, ?_⟩
      have e := update_volume (bed := bed) h t _ _ _ h1
      simp only [fluxIntegral, Matrix.cons_val_zero]
      rw [e]; ring
  | rk2 =>
    simp only [stepOf, rk2Step] at hr
    unfold record
    simp only
    cases h1 : Verif.Quantity.updateAll (env.dt t (env.distribute q)) (env.distribute q) (env.expl t (env.distribute q))
        (env.semi t (env.distribute q)) with
    | none => rw [h1] at hr; cases hr
    | some q1 =>
      rw [h1] at hr
      simp only at hr ⊢
      generalize env.distribute (if env.ghostLayerThin then env.ghosts (env.post q1) else env.post q1) = p1 at *
      cases h2 : Verif.Quantity.updateAll (env.dt t (env.distribute q)) p1 (env.expl (t + env.dt t (env.distribute q)) p1)
        (env.semi (t + env.dt t (env.distribute q)) p1) with
      | none => rw [h2] at hr; cases hr
      | some q2 =>
        rw [h2] at hr
        cases hr
        refine ⟨_, _, rfl, ?_⟩
        have e1 := update_volume (bed := bed) h t _ _ _ h1
        have e2 := update_volume (bed := bed) h _ _ _ _ h2
        have e3 := volume_comb (full := full) (area := area) bed (1 / 2) (1 / 2) (by norm_num) (env.post q2) q
          (Verif.Quantity.saxpy (1 / 2) (1 / 2) (env.post q2) q) (fun i => rfl)
        simp only [fluxIntegral, Matrix.cons_val_zero, Matrix.cons_val_one]
        rw [e3, e2, e1]; ring
  | rk3 =>
    simp only [stepOf, rk3Step] at hr
    unfold record
    simp only
    cases h1 : Verif.Quantity.updateAll (env.dt t (env.distribute q)) (env.distribute q) (env.expl t (env.distribute q))
        (env.semi t (env.distribute q)) with
    | none => rw [h1] at hr; cases hr
    | some q1 =>
      rw [h1] at hr
      simp only at hr ⊢
      generalize env.distribute (env.ghosts (env.post q1)) = p1 at *
      cases h2 : Verif.Quantity.updateAll (env.dt t (env.distribute q)) p1 (env.expl (t + env.dt t (env.distribute q)) p1)
        (env.semi (t + env.dt t (env.distribute q)) p1) with
      | none => rw [h2] at hr; cases hr
      | some q2 =>
        rw [h2] at hr
        simp only at hr ⊢
        generalize hqh : Verif.Quantity.saxpy (1 / 4) (3 / 4) (env.post q2) q = qh at *
        generalize env.distribute (env.ghosts qh) = p2 at *
        cases h3 : Verif.Quantity.updateAll (env.dt t (env.distribute q)) p2
          (env.expl (t + env.dt t (env.distribute q) * (1 / 2)) p2)
          (env.semi (t + env.dt t (env.distribute q) * (1 / 2)) p2) with
        | none => rw [h3] at hr; cases hr
        | some q3 =>
          rw [h3] at hr
          cases hr
          refine ⟨_, _, rfl, ?_⟩
          have e1 := update_volume (bed := bed) h t _ _ _ h1
          have e2 := update_volume (bed := bed) h _ _ _ _ h2
          have e3 := update_volume (bed := bed) h _ _ _ _ h3
          have e4 := volume_comb (full := full) (area := area) bed (1 / 4) (3 / 4) (by norm_num) (env.post q2) q qh
            (fun i => by rw [← hqh]; rfl)
          have e5 := volume_comb (full := full) (area := area) bed (2 / 3) (1 / 3) (by norm_num) (env.post q3) q
            (fun i => Verif.Quantity.saxpy 2 1 (env.post q3) q i / 3) (fun i => by simp only [Verif.Quantity.saxpy]; ring)
          simp only [fluxIntegral, Matrix.cons_val_zero, Matrix.cons_val_one, Matrix.cons_val_two, Matrix.tail_cons,
            Matrix.head_cons]
          rw [e5, e3, e4, e2, e1]; ring

/-- C12, any number of steps of any methods: total volume change = growth of the boundary flux integral + volume added by
depth protection and repair (zero when nothing had to be protected or repaired). -/
theorem C12_run (h : OnlyFluxes env c dom arr call first full area) (ms : List Method) (a b : Acc N K)
    (hr : runSteps c dom arr call first full area bed env ms a = some b) :
    volume full area bed b.q - volume full area bed a.q = (b.integral - a.integral) + (b.added - a.added) := by
  induction ms generalizing a with
  | nil => cases hr; ring
  | cons m ms ih =>
    unfold runSteps at hr
    cases hs : stepOf m env a.t a.q with
    | none => rw [hs] at hr; cases hr
    | some r =>
      obtain ⟨S, v, hrec, hv⟩ := C12_step bed h m a.t a.q r hs a.integral
      rw [hs, hrec] at hr
      have := ih _ hr
      simp only at this
      linear_combination this + hv

end C12

/-! ## C14 -/

theorem clampMin_of_max (a : K) : (if -a > 0 then (0 : K) else -a) = -(if a < 0 then 0 else a) := clampMin_neg a

/-- The flux across an edge whose outside state is the mirror image of the inside state. -/
theorem fluxCentral_mirror (c : Consts K) (ql qr : Q3 K) (h he n1 n2 ze : K) (hw : qr.w = ql.w)
    (hx : (rotate qr n1 n2).x = -(rotate ql n1 n2).x) (hy : (rotate qr n1 n2).y = (rotate ql n1 n2).y) :
    (fluxCentral c ql qr h h he he n1 n2 ze).flux.w = 0 ∧
      ∃ f, (fluxCentral c ql qr h h he he n1 n2 ze).flux = ⟨0, n1 * f, n2 * f⟩ := by
  by_cases h0 : h = 0 ∧ h = 0
  · unfold fluxCentral
    rw [if_pos h0]
    exact ⟨rfl, 0, by simp⟩
  · unfold fluxCentral
    rw [if_neg h0]
    have w1 : (rotate qr n1 n2).w = ql.w := by rw [← hw]; rfl
    have w2 : (rotate ql n1 n2).w = ql.w := rfl
    simp only [hx, hy, w1, w2]
    generalize (rotate ql n1 n2).x = X
    generalize (rotate ql n1 n2).y = Y
    have hs : sideVel h he (-X) Y = (-(sideVel h he X Y).1, -(sideVel h he X Y).2.1, (sideVel h he X Y).2.2.1,
        (sideVel h he X Y).2.2.2) := by
      unfold sideVel
      split_ifs <;> simp
    rw [hs]
    obtain ⟨u, uh, v, vh⟩ := sideVel h he X Y
    simp only
    generalize c.sqrt (c.g * h) = cl
    generalize localFr c u v (-u) v cl cl = fr
    have m2 : min (u - cl) (-u - cl) = -(max (u + cl) (-u + cl)) := by
      rw [max_comm (u + cl), ← min_negs]
      congr 1 <;> ring
    rw [m2, clampMin_neg]
    generalize (if max (u + cl) (-u + cl) < 0 then (0 : K) else max (u + cl) (-u + cl)) = s
    by_cases hd : s - -s < c.eps
    · rw [if_pos hd]
      exact ⟨rfl, 0, by simp⟩
    · rw [if_neg hd]
      simp only [rotate]
      refine ⟨?_, (s * (u * uh) - -s * (-u * -uh) + fr * (s * -s) * (-uh - uh)) * (1 / max (s - -s) (1 / 10 ^ 100)), ?_⟩
      · ring
      · simp only [Q3.mk.injEq]
        refine ⟨?_, ?_, ?_⟩ <;> ring

theorem reflect_rotate (q : Q3 K) (n1 n2 : K) (hn : Unit n1 n2) :
    (rotate (reflect q n1 n2) n1 n2).x = -(rotate q n1 n2).x ∧ (rotate (reflect q n1 n2) n1 n2).y = (rotate q n1 n2).y := by
  unfold Unit at hn
  unfold rotate reflect
  simp only
  constructor
  · linear_combination (-(n1 * q.x + n2 * q.y)) * hn
  · linear_combination (-n2 * q.x + n1 * q.y) * hn

/-- A boundary edge that carries a reflective boundary and no river wall; the water level at the edge is at or above the
bed there, and depth, bed and stage at the edge fit together (as the extrapolation leaves them). -/
structure ReflectiveEdge (D : Dom N K) (e : Edge N) : Prop where
  bnd : D.nbr e = none
  bval : D.bval e = reflect (D.qE e) (D.normal e).1 (D.normal e).2
  unit : Unit (D.normal e).1 (D.normal e).2
  nowall : D.wall e = false
  depth : D.heightE e = (D.qE e).w - D.bedE e
  wet : 0 ≤ D.heightE e

theorem reflective_own (c : Consts K) (D : Dom N K) (e : Edge N) (h : ReflectiveEdge D e) :
    ∃ f, (own c D e).flux = ⟨0, (D.normal e).1 * f, (D.normal e).2 * f⟩ := by
  obtain ⟨h1, h2, h3, h4, h5, h6⟩ := h
  have hw : (reflect (D.qE e) (D.normal e).1 (D.normal e).2).w = (D.qE e).w := rfl
  have hr := reflect_rotate (D.qE e) _ _ h3
  have hm : max ((D.qE e).w - D.bedE e) 0 = D.heightE e := by rw [← h5, max_eq_left h6]
  unfold own edgeCompute edgeIn zHalf
  simp only [h1, h2, h4, Bool.false_eq_true, if_false, hw, hm]
  obtain ⟨_, f, hf⟩ := fluxCentral_mirror c (D.qE e) (reflect (D.qE e) (D.normal e).1 (D.normal e).2)
    (max (D.heightE e + D.bedE e - max (D.bedE e) (D.bedE e)) 0) (D.heightE e) (D.normal e).1 (D.normal e).2
    (max (D.bedE e) (D.bedE e)) hw hr.1 hr.2
  refine ⟨f * D.len e, ?_⟩
  rw [hf]
  simp only [Q3.mk.injEq]
  refine ⟨?_, ?_, ?_⟩ <;> ring

/-- C14: no water crosses a reflective edge and the momentum exchanged there is normal to the edge (a multiple of the
normal), in whichever call, substep and state the flux is computed. -/
theorem C14_reflective_edge (c : Consts K) (D : Dom N K) (hS : Symmetric D.nbr)
    (hU : ∀ e m, D.nbr e = some m → D.update m = D.update e) (call : ℤ) (first : Bool) (dt : K) (s0 : FSt N K)
    (hM : ∀ e, s0.mark e < call) (e : Edge N) (he : D.update e = true) (h : ReflectiveEdge D e) :
    let w := (computeFluxes c D call first dt s0).st.work e
    w.w = 0 ∧ ∃ f, (w.x, w.y) = ((D.normal e).1 * f, (D.normal e).2 * f) := by
  have := ((loop_spec c D hS hU call first dt s0 (fun e => ne_of_lt (hM e)) e).1 he).1
  obtain ⟨f, hf⟩ := reflective_own c D e h
  simp only
  rw [this]
  unfold finalWork
  rw [h.bnd]
  simp only [hf, Q3.neg]
  exact ⟨by simp, -f, by simp⟩

/-- C14: a domain closed by reflective edges keeps its volume: the stage updates of a flux computation that refreshes all
edges sum to zero over the areas. -/
theorem C14_closed_domain_keeps_volume (c : Consts K) (D : Dom N K) (hS : Symmetric D.nbr) (hA : ∀ k, D.area k ≠ 0)
    (hU : ∀ e, D.update e = true) (hF : ∀ k, D.full k = true) (call : ℤ) (first : Bool) (dt : K) (s0 : FSt N K)
    (hM : ∀ e, s0.mark e < call) (h0 : Balanced D.nbr s0.work) (h : ∀ e, D.nbr e = none → ReflectiveEdge D e) :
    ∑ k, D.area k * ((computeFluxes c D call first dt s0).upd k).w = 0 := by
  have hb := balance_sum D hS _ (computeFluxes_balanced c D hS call first dt s0 h0) hA
    (computeFluxes c D call first dt s0).st.pg
  have e1 : volumeRate D (sumUp D (computeFluxes c D call first dt s0).st.work (computeFluxes c D call first dt s0).st.pg)
      = ∑ k, D.area k * ((computeFluxes c D call first dt s0).upd k).w := by
    unfold volumeRate
    exact Finset.sum_congr rfl (fun k _ => by rw [if_pos (hF k)]; rfl)
  rw [← e1, hb]
  refine Finset.sum_eq_zero (fun e _ => ?_)
  split_ifs with ho
  · unfold isOuter at ho
    cases hn : D.nbr e with
    | none =>
      exact (C14_reflective_edge c D hS (fun e m _ => by rw [hU, hU]) call first dt s0 hM e (hU e) (h e hn)).1
    | some m => rw [hn] at ho; simp [hF] at ho
  · rfl

/-- C14 fails at a reflective boundary edge that also carries a river wall: the weir formula compares the centroid stage
inside with the centroid depth plus the *edge* bed outside, so a sloping bed lets water through the wall. -/
theorem C14_not_with_river_wall (c : Consts K) (hg : 0 < c.g) (hs : ∀ x, 0 < x → 0 < c.sqrt x) (hp : c.pow385 1 = 1) :
    ∃ D : Dom 1 K, ∃ e, D.nbr e = none ∧ D.bval e = reflect (D.qE e) (D.normal e).1 (D.normal e).2 ∧
      Unit (D.normal e).1 (D.normal e).2 ∧ D.heightE e = (D.qE e).w - D.bedE e ∧ 0 ≤ D.heightE e ∧
      (D.qE e).x = 0 ∧ (D.qE e).y = 0 ∧ D.heightC e.1 = D.stageC e.1 - D.bedC e.1 ∧
      (own c D e).flux.w ≠ 0 := by
  let D : Dom 1 K :=
    { nbr := fun _ => none, bval := fun _ => ⟨3, 0, 0⟩, qE := fun _ => ⟨3, 0, 0⟩, bedE := fun _ => 0,
      heightE := fun _ => 3, stageC := fun _ => 3, bedC := fun _ => 1, heightC := fun _ => 2, normal := fun _ => (1, 0),
      len := fun _ => 1, area := fun _ => 1, radius := fun _ => 1, full := fun _ => true, wall := fun e => e = (0, 0),
      wallElev := fun _ => 2, wallProps := fun _ => ⟨1, 9 / 10, 95 / 100, 1, 3 / 2⟩, update := fun _ => true,
      allowIncrease := true }
  refine ⟨D, (0, 0), rfl, ?_, ?_, ?_, ?_, rfl, rfl, ?_, ?_⟩
  · simp [D, reflect]
  · simp [D, Unit]
  · simp [D]
  · simp [D]
  · simp [D]; norm_num
  · have hpos := hs (2 / 3 * c.g) (by positivity)
    have hw : wallRank D (0, 0) - 1 = 0 := by
      simp [wallRank, D, edgeList, List.finRange]
    unfold own edgeCompute edgeIn zHalf weir weirBlend
    rw [hw]
    simp only [D]
    norm_num
    rw [hp]
    have : c.sqrt (2 / 3 * c.g) ≠ 0 := ne_of_gt hpos
    simpa using this

end Verif.Flux
