import Verif.ParRun.LemmasStep
import Verif.Par.Props

/-!
# Whole steps and runs on all processors
-/

set_option linter.unusedSectionVars false

namespace Verif.ParRun

open Verif.Flux (Q3 Edge Dom Consts FSt computeFluxes Method stepOf own)
open Verif.Extrap
open Verif.Par (Local)
open Verif.Quantity (updateAll saxpy)

variable {K : Type*} [Field K] [LinearOrder K] [IsStrictOrderedRing K] {N : ℕ}

variable {parts : List Local} {W : World N K} {v : ∀ p : Fin parts.length, World (parts[p]).tris.length K}
  {φ : ∀ p : Fin parts.length, Tri parts[p] → Fin N} {q : Idx parts → K} {Q : Fin N × Fin 3 → K}

/-- Triangles held by a processor. -/
def held (φ : ∀ p : Fin parts.length, Tri parts[p] → Fin N) (p : Fin parts.length) (T : Fin N) : Prop := ∃ k, φ p k = T

/-- Own triangles have the serial values. -/
def AgreeOwn (v : ∀ p : Fin parts.length, World (parts[p]).tris.length K) (φ : ∀ p : Fin parts.length, Tri parts[p] → Fin N)
    (q : Idx parts → K) (Q : Fin N × Fin 3 → K) : Prop :=
  ∀ p k, (v p).base.full k = true → ∀ j, q ⟨p, (k, j)⟩ = Q (φ p k, j)

/-- All triangles have the serial values. -/
def AgreeAll (φ : ∀ p : Fin parts.length, Tri parts[p] → Fin N) (q : Idx parts → K) (Q : Fin N × Fin 3 → K) : Prop :=
  ∀ p k j, q ⟨p, (k, j)⟩ = Q (φ p k, j)

/-- What the runs need: `w` layers of ghosts, `r` layers read by one substep. -/
structure Sound (W : World N K) (v : ∀ p : Fin parts.length, World (parts[p]).tris.length K)
    (φ : ∀ p : Fin parts.length, Tri parts[p] → Fin N) (r w : ℕ) : Prop where
  plain : Plain W
  full : ∀ T, W.base.full T = true
  radius : ∀ T, 0 ≤ W.base.radius T
  eps : 0 ≤ W.cs.eps
  copy : ∀ p, Copy W (v p) (φ p)
  one : 1 ≤ r
  wide : r ≤ w
  reach : ∀ p, Reaches r W (v p) (φ p)
  order : ∀ p k k', (v p).base.full k = true → (v p).base.full k' = false → k < k'
  deep : ∀ p k, (v p).base.full k = true → inns W.G.nbr w (held φ p) (φ p k)
  owner : ∀ T, ∃ p k, (v p).base.full k = true ∧ φ p k = T
  some : 0 < N
  exch : ∀ (q : Idx parts → K) (Q : Fin N × Fin 3 → K), AgreeOwn v φ q Q →
    AgreeAll φ (fun i : Idx parts => Verif.Par.exchange parts (table q) i.1 i.2.1 i.2.2) Q

/-- What holds before every substep. -/
def Inv (W : World N K) (v : ∀ p : Fin parts.length, World (parts[p]).tris.length K)
    (φ : ∀ p : Fin parts.length, Tri parts[p] → Fin N) (q : Idx parts → K) (Q : Fin N × Fin 3 → K) : Prop :=
  AgreeOwn v φ q Q ∧ ∀ p, Same W (v p) (φ p) (held φ p) (on q p) Q

theorem AgreeAll.inv (h : AgreeAll φ q Q) : Inv W v φ q Q :=
  ⟨fun p k _ j => h p k j, fun p => Same.of_agree (fun k _ j => h p k j)⟩

variable {r w : ℕ} (S : Sound W v φ r w)

include S

theorem Sound.plainL (p : Fin parts.length) : Plain (v p) := (S.copy p).plain S.plain

/-- One update on all processors. -/
def advAll (v : ∀ p : Fin parts.length, World (parts[p]).tris.length K) (t dt : K) (q : Idx parts → K) : Idx parts → K :=
  fun i => advance (v i.1) t dt (on q i.1) i.2

omit S in
theorem par_updateAll' (hp : ∀ p, Plain (v p)) (width : ℕ) (choose : K → K) (t dt : K) (hdt : 0 ≤ dt) (q : Idx parts → K) :
    let E := parEnv v width choose
    updateAll dt (E.distribute q) (E.expl t (E.distribute q)) (E.semi t (E.distribute q)) = some (advAll v t dt q) := by
  intro E
  unfold updateAll
  simp only
  have hp : ∀ i : Idx parts, 0 < 1 - dt * (if E.distribute q i = 0 then 0 else E.semi t (E.distribute q) i / E.distribute q i) :=
    fun i => semi_ok (hp i.1) t dt hdt ((v i.1).env.distribute (on q i.1)) i.2
  rw [if_pos hp]
  rfl

theorem par_updateAll (width : ℕ) (choose : K → K) (t dt : K) (hdt : 0 ≤ dt) (q : Idx parts → K) :
    let E := parEnv v width choose
    updateAll dt (E.distribute q) (E.expl t (E.distribute q)) (E.semi t (E.distribute q)) = some (advAll v t dt q) :=
  par_updateAll' (fun p => S.plainL p) width choose t dt hdt q

/-- Flux timesteps. -/
theorem step_eq (t : K) (hq : ∀ p, Same W (v p) (φ p) (held φ p) (on q p) Q) :
    smallest ((List.finRange parts.length).map (fun p => fluxStep (v p) t ((v p).env.distribute (on q p)))) =
      fluxStep W t (W.env.distribute Q) := by
  have sp : ∀ p k i, (v p).base.full k = true → own (v p).cs ((v p).dom t ((v p).env.distribute (on q p))) (k, i) =
      own W.cs (W.dom t (W.env.distribute Q)) (φ p k, i) := by
    intro p k i hk
    obtain ⟨q', Q', a, b, e⟩ := hq p
    rw [a, b, dom_dist (S.plainL p), dom_dist S.plain]
    exact S.reach p t q' Q' _ (fun T hT => hT) e k i (inns_le S.wide _ (S.deep p k hk))
  have hW := fluxStep_spec S.plain (fun k k' _ hk' => by rw [S.full] at hk'; cases hk') t (W.env.distribute Q)
  have hv := fun p => fluxStep_spec (S.plainL p) (S.order p) t ((v p).env.distribute (on q p))
  obtain ⟨W1, W2, W3⟩ := hW
  -- the serial step is a lower bound
  have low : ∀ p, fluxStep W t (W.env.distribute Q) ≤ fluxStep (v p) t ((v p).env.distribute (on q p)) := by
    intro p
    rcases (hv p).2.2 with h | ⟨⟨k, i⟩, hf, hs, h⟩
    · rw [h]; exact W1
    · have e := sp p k i hf
      rw [e, (S.copy p).cs] at hs h
      rcases h with h | ⟨⟨m, j⟩, hm, h⟩
      · rw [h, (S.copy p).radius]
        exact W2 (φ p k, i) (S.full _) hs
      · have hm' := (S.copy p).geo.piece.down k i m j hm
        have hsw := Verif.Flux.own_swap W.cs _ (S.plain.conforming t (W.env.distribute Q)) (fun e => S.plain.heads t _ e _) hm'
        have hsp : (own W.cs (W.dom t (W.env.distribute Q)) (φ p m, j)).speed =
            (own W.cs (W.dom t (W.env.distribute Q)) (φ p k, i)).speed := by rw [hsw]
        rw [h, (S.copy p).radius, ← hsp]
        exact W2 (φ p m, j) (S.full _) (by rw [hsp]; exact hs)
  -- and some processor attains it
  have att : ∃ p, fluxStep (v p) t ((v p).env.distribute (on q p)) ≤ fluxStep W t (W.env.distribute Q) := by
    have own' : ∀ e : Edge N, (own W.cs (W.dom t (W.env.distribute Q)) e).speed > W.cs.eps →
        ∃ p, fluxStep (v p) t ((v p).env.distribute (on q p)) ≤
          W.base.radius e.1 * (1 / max (own W.cs (W.dom t (W.env.distribute Q)) e).speed W.cs.eps) := by
      rintro ⟨T, i⟩ hs
      obtain ⟨p, k, hk, rfl⟩ := S.owner T
      refine ⟨p, ?_⟩
      have := (hv p).2.1 (k, i) hk (by rw [sp p k i hk, (S.copy p).cs]; exact hs)
      rw [sp p k i hk, (S.copy p).cs, (S.copy p).radius] at this
      exact this
    rcases W3 with h | ⟨e, _, hs, h⟩
    · obtain ⟨p, k, _, _⟩ := S.owner ⟨0, S.some⟩
      exact ⟨p, by rw [h]; exact (hv p).1⟩
    · rcases h with h | ⟨m, hm, h⟩
      · rw [h]; exact own' e hs
      · have hsw := Verif.Flux.own_swap W.cs _ (S.plain.conforming t (W.env.distribute Q)) (fun e => S.plain.heads t _ e _) hm
        have hsp : (own W.cs (W.dom t (W.env.distribute Q)) m).speed = (own W.cs (W.dom t (W.env.distribute Q)) e).speed := by rw [hsw]
        rw [h, ← hsp]
        exact own' m (by rw [hsp]; exact hs)
  obtain ⟨p0, hp0⟩ := att
  set f := fun p => fluxStep (v p) t ((v p).env.distribute (on q p)) with hf
  have hmem : f p0 ∈ (List.finRange parts.length).map f := List.mem_map.mpr ⟨p0, List.mem_finRange p0, rfl⟩
  cases hl : (List.finRange parts.length).map f with
  | nil => rw [hl] at hmem; cases hmem
  | cons x xs =>
    obtain ⟨c1, c2, _⟩ := Verif.Par.C68_common_step x xs
    rw [hl] at hmem
    show Verif.Par.commonStep none x xs = _
    apply le_antisymm
    · exact (c2 _ hmem).trans hp0
    · rw [← hl] at c1
      obtain ⟨p, _, hp⟩ := List.mem_map.mp c1
      rw [← hp]
      exact low p

/-- One substep: own triangles are right afterwards. -/
theorem sub_own {D : Fin parts.length → Fin N → Prop} (hD : ∀ p, Held (φ p) (D p))
    (hf : ∀ p k, (v p).base.full k = true → inns W.G.nbr r (D p) (φ p k))
    (hq : ∀ p, Same W (v p) (φ p) (D p) (on q p) Q) (width : ℕ) (choose : K → K) (t dt : K) :
    AgreeOwn v φ ((parEnv v width choose).post (advAll v t dt q)) (W.env.post (advance W t dt Q)) := by
  intro p k hk j
  refine post_own (S.copy p) S.full k hk ?_ j
  intro j
  exact advance_on (S.copy p) S.plain S.one (S.reach p) (hD p) (hq p) t dt k (hf p k hk) j

theorem inv_exch (width : ℕ) (choose : K → K) (h : AgreeOwn v φ q Q) : Inv W v φ ((parEnv v width choose).ghosts q) Q :=
  (S.exch q Q h).inv

theorem inv_sub (h : Inv W v φ q Q) (width : ℕ) (choose : K → K) (t dt : K) :
    AgreeOwn v φ ((parEnv v width choose).post (advAll v t dt q)) (W.env.post (advance W t dt Q)) :=
  sub_own S (fun _ _ hT => hT) (fun p k hk => inns_le S.wide _ (S.deep p k hk)) h.2 width choose t dt

omit S in
/-- Result of a step when no update fails. -/
def stepVal {ι : Type*} (E : Verif.Quantity.Env K ι) (a : K → K → (ι → K) → ι → K) (m : Method) (t dt : K) (q : ι → K) : ι → K :=
  match m with
  | .euler => E.post (a t dt q)
  | .rk2 =>
    saxpy (1 / 2) (1 / 2) (E.post (a (t + dt) dt (if E.ghostLayerThin then E.ghosts (E.post (a t dt q)) else E.post (a t dt q)))) q
  | .rk3 => fun i => saxpy 2 1 (E.post (a (t + dt * (1 / 2)) dt (E.ghosts (saxpy (1 / 4) (3 / 4)
      (E.post (a (t + dt) dt (E.ghosts (E.post (a t dt q))))) q)))) q i / 3

omit S in
theorem stepOf_val {ι : Type*} [Fintype ι] (E : Verif.Quantity.Env K ι) (a : K → K → (ι → K) → ι → K)
    (h : ∀ t dt, 0 ≤ dt → ∀ q, updateAll dt (E.distribute q) (E.expl t (E.distribute q)) (E.semi t (E.distribute q)) = some (a t dt q))
    (m : Method) (t : K) (q : ι → K) (hdt : 0 ≤ E.dt t (E.distribute q)) :
    ∃ A, stepOf m E t q = some A ∧ A.time = t + E.dt t (E.distribute q) ∧ A.q = stepVal E a m t (E.dt t (E.distribute q)) q := by
  cases m with
  | euler =>
    simp only [stepOf, Verif.Quantity.eulerStep, h _ _ hdt]
    exact ⟨_, rfl, rfl, rfl⟩
  | rk2 =>
    simp only [stepOf, Verif.Quantity.rk2Step, h _ _ hdt]
    exact ⟨_, rfl, rfl, rfl⟩
  | rk3 =>
    simp only [stepOf, Verif.Quantity.rk3Step, h _ _ hdt]
    exact ⟨_, rfl, rfl, rfl⟩

theorem serial_updateAll (width : ℕ) (choose : K → K) (t dt : K) (hdt : 0 ≤ dt) (Q : Fin N × Fin 3 → K) :
    updateAll dt ((serialEnv W width choose).distribute Q) ((serialEnv W width choose).expl t ((serialEnv W width choose).distribute Q))
      ((serialEnv W width choose).semi t ((serialEnv W width choose).distribute Q)) = some (advance W t dt Q) :=
  updateAll_eq S.plain t dt hdt Q

theorem dt_eq (width : ℕ) (choose : K → K) (t : K) (hq : Inv W v φ q Q) :
    (parEnv v width choose).dt t ((parEnv v width choose).distribute q) =
      (serialEnv W width choose).dt t ((serialEnv W width choose).distribute Q) := by
  show choose (smallest _) = choose _
  congr 1
  exact step_eq S t hq.2

omit S in
theorem AgreeOwn.saxpy (a b : K) {x y : Idx parts → K} {X Y : Fin N × Fin 3 → K} (h1 : AgreeOwn v φ x X) (h2 : AgreeOwn v φ y Y) :
    AgreeOwn v φ (saxpy a b x y) (saxpy a b X Y) := by
  intro p k hk j
  unfold Verif.Quantity.saxpy
  rw [h1 p k hk j, h2 p k hk j]

/-- Values after a step. -/
theorem stepVal_on (m : Method) (width : ℕ) (h2 : m = .rk2 → 4 ≤ width → 2 * r ≤ w) (choose : K → K) (t dt : K)
    (hq : Inv W v φ q Q) :
    AgreeOwn v φ (stepVal (parEnv v width choose) (advAll v) m t dt q) (stepVal (serialEnv W width choose) (advance W) m t dt Q) := by
  have s1 := inv_sub S hq width choose t dt
  have hid : ∀ x, (serialEnv W width choose).ghosts x = x := fun _ => rfl
  have hpo : (serialEnv W width choose).post = W.env.post := rfl
  cases m with
  | euler => exact s1
  | rk2 =>
    simp only [stepVal, hid, hpo, ite_self]
    refine AgreeOwn.saxpy _ _ ?_ hq.1
    by_cases hth : width < 4
    · have : (parEnv v width choose).ghostLayerThin = true := decide_eq_true hth
      rw [this, if_pos rfl]
      exact inv_sub S (inv_exch S width choose s1) width choose (t + dt) dt
    · have : (parEnv v width choose).ghostLayerThin = false := decide_eq_false hth
      rw [this, if_neg (by simp)]
      have h2' := h2 rfl (by omega)
      refine sub_own S (D := fun p => inns W.G.nbr r (held φ p)) ?_ ?_ ?_ width choose (t + dt) dt
      · intro p T hT
        exact inns_le (Nat.zero_le r) T hT
      · intro p k hk
        rw [← inns_add]
        exact inns_le (by omega) _ (S.deep p k hk)
      · intro p
        have := advance_on (S.copy p) S.plain S.one (S.reach p) (fun T hT => hT) (hq.2 p) t dt
        have e : on ((parEnv v width choose).post (advAll v t dt q)) p = (v p).env.post (advance (v p) t dt (on q p)) := rfl
        rw [e]
        exact Same.post (S.plainL p) S.plain (Same.of_agree this)
  | rk3 =>
    simp only [stepVal, hid, hpo]
    have s2 := inv_sub S (inv_exch S width choose s1) width choose (t + dt) dt
    have s3 := inv_sub S (inv_exch S width choose (AgreeOwn.saxpy (1 / 4) (3 / 4) s2 hq.1)) width choose (t + dt * (1 / 2)) dt
    intro p k hk j
    have s4 := AgreeOwn.saxpy 2 1 s3 hq.1 p k hk j
    simp only
    rw [s4]

theorem fluxStep_nonneg (t : K) (Q : Fin N × Fin 3 → K) : 0 ≤ fluxStep W t Q := by
  have hO : ∀ k k', W.base.full k = true → W.base.full k' = false → k < k' := fun k k' _ h => by rw [S.full k'] at h; simp at h
  have hp : ∀ x, x > W.cs.eps → 0 ≤ 1 / max x W.cs.eps := fun x _ => one_div_nonneg.mpr (S.eps.trans (le_max_right _ _))
  rcases (fluxStep_spec S.plain hO t Q).2.2 with h | ⟨e, _, hs, h | ⟨m, _, h⟩⟩
  · rw [h]; positivity
  · rw [h]; exact mul_nonneg (S.radius _) (hp _ hs)
  · rw [h]; exact mul_nonneg (S.radius _) (hp _ hs)

/-- One step of any method. -/
theorem step_on (m : Method) (width : ℕ) (h2 : m = .rk2 → 4 ≤ width → 2 * r ≤ w) (choose : K → K) (hc : ∀ x, 0 ≤ x → 0 ≤ choose x) (t : K)
    (hq : Inv W v φ q Q) :
    ∃ a A, stepOf m (parEnv v width choose) t q = some a ∧ stepOf m (serialEnv W width choose) t Q = some A ∧
      a.time = A.time ∧ AgreeOwn v φ a.q A.q := by
  have hdt := dt_eq S width choose t hq
  have hpos : 0 ≤ (serialEnv W width choose).dt t ((serialEnv W width choose).distribute Q) := hc _ (fluxStep_nonneg S t _)
  obtain ⟨a, a1, a2, a3⟩ := stepOf_val (parEnv v width choose) (advAll v) (fun t dt hd q => par_updateAll S width choose t dt hd q) m t q
    (by rw [hdt]; exact hpos)
  obtain ⟨A, A1, A2, A3⟩ := stepOf_val (serialEnv W width choose) (advance W)
    (fun t dt hd Q => serial_updateAll S width choose t dt hd Q) m t Q hpos
  refine ⟨a, A, a1, A1, by rw [a2, A2, hdt], ?_⟩
  rw [a3, A3, hdt]
  exact stepVal_on S m width h2 choose t _ hq

/-- A yield. -/
theorem yield_on (width : ℕ) (choose : K → K) (hq : Inv W v φ q Q) :
    Inv W v φ ((parEnv v width choose).distribute q) ((serialEnv W width choose).distribute Q) := by
  constructor
  · intro p k hk j
    have e : (parEnv v width choose).distribute q ⟨p, (k, j)⟩ = (v p).env.distribute (on q p) (k, j) := rfl
    have e' : (serialEnv W width choose).distribute Q = W.env.distribute Q := rfl
    rw [e, e']
    exact (hq.2 p).agree_dist (S.copy p) S.plain (fun T hT => hT) k (inns_le (a := 1) (S.one.trans S.wide) _ (S.deep p k hk)) j
  · intro p
    have e : on ((parEnv v width choose).distribute q) p = (v p).env.distribute (on q p) := rfl
    have e' : (serialEnv W width choose).distribute Q = W.env.distribute Q := rfl
    rw [e, e']
    exact (hq.2 p).dist (S.plainL p) S.plain

/-- Whole runs. -/
theorem run_on (width : ℕ) (es : List (Event K))
    (he : ∀ m choose, Event.step m choose ∈ es → (m = .rk2 → 4 ≤ width → 2 * r ≤ w) ∧ ∀ x, 0 ≤ x → 0 ≤ choose x) :
    ∀ (t : K) (q : Idx parts → K) (Q : Fin N × Fin 3 → K), Inv W v φ q Q →
      ∃ t' q' Q', run (parEnv v width) es t q = some (t', q') ∧ run (serialEnv W width) es t Q = some (t', Q') ∧ Inv W v φ q' Q' := by
  induction es with
  | nil => intro t q Q h; exact ⟨t, q, Q, rfl, rfl, h⟩
  | cons e es ih =>
    intro t q Q h
    have ih' := ih (fun m c hm => he m c (List.mem_cons_of_mem _ hm))
    cases e with
    | yield =>
      simp only [run]
      exact ih' t _ _ (yield_on S width _ h)
    | step m choose =>
      obtain ⟨h2, hc⟩ := he m choose List.mem_cons_self
      obtain ⟨a, A, ha, hA, ht, ho⟩ := step_on S m width h2 choose hc t h
      obtain ⟨t', q', Q', r1, r2, r3⟩ := ih' a.time _ _ (inv_exch S width choose ho)
      refine ⟨t', q', Q', ?_, ?_, r3⟩
      · simp only [run, ha]
        exact r1
      · simp only [run, hA, ← ht]
        exact r2

end Verif.ParRun
