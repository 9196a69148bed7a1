import Verif.ParRun.Lemmas
import Verif.Flux.PropsTwo
import Verif.Friction.Props

/-!
# Fluxes and timestep on one processor
-/

set_option linter.unusedSectionVars false

namespace Verif.ParRun

open Verif.Flux (Q3 Edge Dom Consts FSt computeFluxes Method stepOf Conforming HeadsOk wallRank edgeIn own work_all edgeIn_nowall)
open Verif.Extrap

variable {K : Type*} [Field K] [LinearOrder K] [IsStrictOrderedRing K] {N n : ℕ}

/-- Conditions on a domain without river walls whose fluxes are all refreshed at every call. -/
structure Plain (W : World N K) : Prop where
  vel : W.p.vel = true
  minH : 0 < W.p.minH
  symm : Verif.Flux.Symmetric W.G.nbr
  noSelf : NoSelf W.G.nbr
  normal : ∀ e m, W.G.nbr e = some m → W.base.normal m = (-(W.base.normal e).1, -(W.base.normal e).2)
  len : ∀ e m, W.G.nbr e = some m → W.base.len m = W.base.len e
  wall : ∀ e, W.base.wall e = false
  update : ∀ e, W.base.update e = true
  increase : W.base.allowIncrease = true
  marks : ∀ t q e, (W.arr t q).mark e < W.call t q
  phys : Verif.Friction.Physical W.fc

theorem Plain.conforming {W : World N K} (h : Plain W) (t : K) (q : Fin N × Fin 3 → K) : Conforming (W.dom t q) where
  symm := h.symm
  normal := h.normal
  len := h.len
  wall := fun e m _ => by show W.base.wall m = W.base.wall e; rw [h.wall, h.wall]
  wallElev := fun e m _ hw => by
    have : W.base.wall e = true := hw
    rw [h.wall] at this; cases this
  wallProps := fun e m _ hw => by
    have : W.base.wall e = true := hw
    rw [h.wall] at this; cases this

theorem Plain.heads {W : World N K} (h : Plain W) (t : K) (q : Fin N × Fin 3 → K) (e : Edge N) (a : ℕ) :
    HeadsOk (edgeIn (W.dom t q) e a) := by
  have hw : (W.dom t q).wall e = false := h.wall e
  have : (edgeIn (W.dom t q) e a).wall = none := by
    unfold edgeIn
    cases (W.dom t q).nbr e <;> simp [hw]
  unfold HeadsOk
  rw [this]
  trivial

/-- The data of a local domain are those of the serial domain. -/
structure Copy (W : World N K) (v : World n K) (φ : Fin n → Fin N) : Prop where
  geo : SameGeo W.G v.G φ
  p : v.p = W.p
  cs : v.cs = W.cs
  fc : v.fc = W.fc
  sloped : v.sloped = W.sloped
  bed : ∀ k, v.bed k = W.bed (φ k)
  fr : ∀ k, v.fr k = W.fr (φ k)
  normal : ∀ k i, v.base.normal (k, i) = W.base.normal (φ k, i)
  len : ∀ k i, v.base.len (k, i) = W.base.len (φ k, i)
  area : ∀ k, v.base.area k = W.base.area (φ k)
  radius : ∀ k, v.base.radius k = W.base.radius (φ k)
  wall : ∀ e, v.base.wall e = false
  update : ∀ e, v.base.update e = true
  increase : v.base.allowIncrease = W.base.allowIncrease
  marks : ∀ t q e, (v.arr t q).mark e < v.call t q
  bnd : ∀ t k i q, W.G.nbr (φ k, i) = none → v.bnd t (k, i) q = W.bnd t (φ k, i) q

theorem Copy.plain {W : World N K} {v : World n K} {φ : Fin n → Fin N} (c : Copy W v φ) (h : Plain W) : Plain v where
  vel := by rw [c.p]; exact h.vel
  minH := by rw [c.p]; exact h.minH
  symm := sym_local c.geo h.symm
  noSelf := noSelf_local c.geo h.noSelf
  normal := fun ⟨k, i⟩ ⟨m, j⟩ hm => by
    rw [c.normal, c.normal]; exact h.normal _ _ (c.geo.piece.down k i m j hm)
  len := fun ⟨k, i⟩ ⟨m, j⟩ hm => by
    rw [c.len, c.len]; exact h.len _ _ (c.geo.piece.down k i m j hm)
  wall := c.wall
  update := c.update
  increase := by rw [c.increase]; exact h.increase
  marks := c.marks
  phys := by rw [c.fc]; exact h.phys

/-- Local and serial state agree on `D`. -/
def Agree (φ : Fin n → Fin N) (D : Fin N → Prop) (q : Fin n × Fin 3 → K) (Q : Fin N × Fin 3 → K) : Prop :=
  ∀ k, D (φ k) → ∀ c, q (k, c) = Q (φ k, c)

/-- Edge results are right after losing `r` layers. -/
def Reaches (r : ℕ) (W : World N K) (v : World n K) (φ : Fin n → Fin N) : Prop :=
  ∀ t q Q D, Held φ D → Agree φ D q Q → ∀ k i, inns W.G.nbr r D (φ k) → own v.cs (v.dom t q) (k, i) = own W.cs (W.dom t Q) (φ k, i)

variable {W : World N K} {v : World n K} {φ : Fin n → Fin N} {D : Fin N → Prop} {q : Fin n × Fin 3 → K} {Q : Fin N × Fin 3 → K}

theorem cent_on (c : Copy W v φ) (h : Agree φ D q Q) : OnC φ D (cent v.bed q) (cent W.bed Q) :=
  ⟨fun k hk => h k hk 0, fun k _ => c.bed k, fun k hk => h k hk 1, fun k hk => h k hk 2⟩

theorem fin3 (j : Fin 3) : j = 0 ∨ j = 1 ∨ j = 2 := by revert j; decide

/-- Distribution loses one layer. -/
theorem dist_on (c : Copy W v φ) (hW : Plain W) (hD : Held φ D) (h : Agree φ D q Q) :
    Agree φ (inn W.G.nbr D) (v.env.distribute q) (W.env.distribute Q) := by
  have hd := distribute_on c.geo hD hW.vel (area := v.base.area) (Area := W.base.area) (cent_on c h)
  intro k hk j
  show state (distribute v.G v.p v.base.area (cent v.bed q)).1 (k, j) = state (distribute W.G W.p W.base.area (cent W.bed Q)).1 (φ k, j)
  rw [c.p]
  rcases fin3 j with rfl | rfl | rfl
  · exact hd.stage k hk
  · exact hd.xm k hk
  · exact hd.ym k hk

/-- The edge data, from edge values right on `E`. -/
theorem edgeIn_on (c : Copy W v φ) (hW : Plain W) (hD : Held φ D) (h : Agree φ D q Q) {E : Fin N → Prop} (hE : ∀ T, E T → inn W.G.nbr D T)
    (he : OnE φ E (extrapolate v.G v.p (protect v.p.minH v.base.area (cent v.bed q)).1)
      (extrapolate W.G W.p (protect W.p.minH W.base.area (cent W.bed Q)).1)) (t : K) (k : Fin n) (i : Fin 3)
    (hk : inn W.G.nbr E (φ k)) (a b : ℕ) : edgeIn (v.dom t q) (k, i) a = edgeIn (W.dom t Q) (φ k, i) b := by
  have hD' : Held φ E := fun T hT => hD T (hE T hT).1
  have hd := distribute_on c.geo hD hW.vel (area := v.base.area) (Area := W.base.area) (cent_on c h)
  have hp := protect_on W.p.minH (area := v.base.area) (Area := W.base.area) (cent_on c h)
  have hh := height_on hW.vel hp
  have hkE := hk.1
  have hkD := hE _ hkE
  have s1 := he.stage k i hkE
  have s2 := he.height k i hkE
  have s3 := he.bed k i hkE
  have s4 := he.xm k i hkE
  have s5 := he.ym k i hkE
  have c1 := hd.stage k hkD
  have c2 := hd.bed k hkD
  have c3 := hh k hkD.1
  rw [← c.p] at c1 c2 c3
  have wl : (v.dom t q).wall (k, i) = false := c.wall _
  have wg : (W.dom t Q).wall (φ k, i) = false := hW.wall _
  unfold edgeIn
  rcases c.geo.piece.nbr_cases hD' hk i with ⟨n1, n2⟩ | ⟨m, j, n1, n2, n3⟩
  · have n1' : (v.dom t q).nbr (k, i) = none := n1
    have n2' : (W.dom t Q).nbr (φ k, i) = none := n2
    rw [n1', n2']
    simp only [wl, wg, Bool.false_eq_true, if_false]
    have hb : (v.dom t q).bval (k, i) = (W.dom t Q).bval (φ k, i) := by
      show v.bnd t (k, i) ⟨_, _, _⟩ = W.bnd t (φ k, i) ⟨_, _, _⟩
      rw [c.bnd t k i _ n2]
      congr 2
    have e1 : (v.dom t q).qE (k, i) = (W.dom t Q).qE (φ k, i) := by
      show Q3.mk _ _ _ = Q3.mk _ _ _
      congr 1
    have e2 : (v.dom t q).bedE (k, i) = (W.dom t Q).bedE (φ k, i) := s3
    have e3 : (v.dom t q).heightE (k, i) = (W.dom t Q).heightE (φ k, i) := s2
    have e4 : (v.dom t q).stageC k = (W.dom t Q).stageC (φ k) := by rw [c.p] at c1; exact (congrArg (fun p => (distribute v.G p v.base.area (cent v.bed q)).1.stage k) c.p).trans c1
    have e5 : (v.dom t q).bedC k = (W.dom t Q).bedC (φ k) := c.bed k
    have e6 : (v.dom t q).heightC k = (W.dom t Q).heightC (φ k) := by
      show height v.p (protect v.p.minH v.base.area (cent v.bed q)).1 k = height W.p (protect W.p.minH W.base.area (cent W.bed Q)).1 (φ k)
      rw [c.p] at c3 ⊢; exact c3
    have e7 : (v.dom t q).normal (k, i) = (W.dom t Q).normal (φ k, i) := c.normal k i
    have e8 : (v.dom t q).len (k, i) = (W.dom t Q).len (φ k, i) := c.len k i
    rw [hb, e1, e2, e3, e4, e5, e6, e7, e8]
  · have n1' : (v.dom t q).nbr (k, i) = some (m, j) := n1
    have n2' : (W.dom t Q).nbr (φ k, i) = some (φ m, j) := n2
    rw [n1', n2']
    simp only [wl, wg, Bool.false_eq_true, if_false]
    have main : ∀ k', E (φ k') → ∀ i', (v.dom t q).qE (k', i') = (W.dom t Q).qE (φ k', i') ∧
        (v.dom t q).bedE (k', i') = (W.dom t Q).bedE (φ k', i') ∧ (v.dom t q).heightE (k', i') = (W.dom t Q).heightE (φ k', i') ∧
        (v.dom t q).stageC k' = (W.dom t Q).stageC (φ k') ∧ (v.dom t q).bedC k' = (W.dom t Q).bedC (φ k') ∧
        (v.dom t q).heightC k' = (W.dom t Q).heightC (φ k') := by
      intro k' hk' i'
      refine ⟨?_, he.bed k' i' hk', he.height k' i' hk', ?_, c.bed k', ?_⟩
      · show Q3.mk _ _ _ = Q3.mk _ _ _
        congr 1
        · exact he.stage k' i' hk'
        · exact he.xm k' i' hk'
        · exact he.ym k' i' hk'
      · have := hd.stage k' (hE _ hk')
        rw [← c.p] at this
        exact (this.trans (by rw [c.p]; rfl))
      · have := hh k' (hE _ hk').1
        show height v.p (protect v.p.minH v.base.area (cent v.bed q)).1 k' = height W.p (protect W.p.minH W.base.area (cent W.bed Q)).1 (φ k')
        rw [c.p]; exact this
    obtain ⟨a1, a2, a3, a4, a5, a6⟩ := main k hkE i
    obtain ⟨b1, b2, b3, b4, b5, b6⟩ := main m n3 j
    have e7 : (v.dom t q).normal (k, i) = (W.dom t Q).normal (φ k, i) := c.normal k i
    have e8 : (v.dom t q).len (k, i) = (W.dom t Q).len (φ k, i) := c.len k i
    rw [a1, a2, a3, a4, a5, a6, b1, b2, b3, b4, b5, b6, e7, e8]

theorem reaches_three (c : Copy W v φ) (hW : Plain W) : Reaches 3 W v φ := by
  intro t q Q D hD h k i hk
  have hp := protect_on W.p.minH (area := v.base.area) (Area := W.base.area) (cent_on c h)
  have he := edges_on c.geo hD hW.vel hp
  rw [← c.p] at he
  have he' : OnE φ (inns W.G.nbr 2 D) (extrapolate v.G v.p (protect v.p.minH v.base.area (cent v.bed q)).1)
      (extrapolate W.G W.p (protect W.p.minH W.base.area (cent W.bed Q)).1) := by
    rw [c.p] at he ⊢; exact he
  unfold own
  rw [c.cs, edgeIn_on c hW hD h (fun T hT => hT.1) he' t k i hk _ (wallRank (W.dom t Q) (φ k, i) - 1)]

theorem reaches_two (c : Copy W v φ) (hW : Plain W) (hu : W.p.betaUhDry ≤ 0) (hv : W.p.betaVhDry ≤ 0) (hc : ∀ k, nb W.G k ≠ 2) :
    Reaches 2 W v φ := by
  intro t q Q D hD h k i hk
  have hp := protect_on W.p.minH (area := v.base.area) (Area := W.base.area) (cent_on c h)
  have he := edges_on_dry c.geo hD hW.vel hW.minH hW.symm hW.noSelf hu hv hc hp
  rw [← c.p] at he
  have he' : OnE φ (inn W.G.nbr D) (extrapolate v.G v.p (protect v.p.minH v.base.area (cent v.bed q)).1)
      (extrapolate W.G W.p (protect W.p.minH W.base.area (cent W.bed Q)).1) := by
    rw [c.p] at he ⊢; exact he
  unfold own
  rw [c.cs, edgeIn_on c hW hD h (fun T hT => hT) he' t k i hk _ (wallRank (W.dom t Q) (φ k, i) - 1)]

/-! ## Timestep -/

/-- What the flux timestep is. -/
theorem fluxStep_spec (h : Plain W) (hO : ∀ k k', W.base.full k = true → W.base.full k' = false → k < k') (t : K)
    (Q : Fin N × Fin 3 → K) :
    fluxStep W t Q ≤ 10 ^ 100 ∧
    (∀ e, W.base.full e.1 = true → (own W.cs (W.dom t Q) e).speed > W.cs.eps →
      fluxStep W t Q ≤ W.base.radius e.1 * (1 / max (own W.cs (W.dom t Q) e).speed W.cs.eps)) ∧
    (fluxStep W t Q = 10 ^ 100 ∨ ∃ e, W.base.full e.1 = true ∧ (own W.cs (W.dom t Q) e).speed > W.cs.eps ∧
      (fluxStep W t Q = W.base.radius e.1 * (1 / max (own W.cs (W.dom t Q) e).speed W.cs.eps) ∨
        ∃ m, W.G.nbr e = some m ∧ fluxStep W t Q = W.base.radius m.1 * (1 / max (own W.cs (W.dom t Q) e).speed W.cs.eps))) := by
  have hC := h.conforming t Q
  have hU : ∀ e, (W.dom t Q).update e = true := h.update
  have hts := Verif.Flux.ts_spec W.cs (W.dom t Q) hC.symm (fun e m _ => by rw [hU, hU]) (W.call t Q) 0 (W.arr t Q)
    (fun e => ne_of_lt (h.marks t Q e))
  have hI : (W.dom t Q).allowIncrease = true := h.increase
  rw [hI] at hts
  simp only [if_true] at hts
  refine ⟨hts.init, ?_, ?_⟩
  · intro e hf hs
    apply hts.all
    by_cases hl : Verif.Flux.Later (W.dom t Q) e
    · obtain ⟨m, hm, hlt⟩ := hl
      have hme := (hC.symm e m hm).1
      have hsw := Verif.Flux.own_swap W.cs _ hC (fun e => h.heads t Q e _) hm
      have hsp : (own W.cs (W.dom t Q) m).speed = (own W.cs (W.dom t Q) e).speed := by rw [hsw]
      have hfm : W.base.full m.1 = true := by
        by_contra hg
        have := hO e.1 m.1 hf (by simpa using hg)
        unfold Verif.Flux.pos at hlt
        have h2 := e.2.2
        have h3 := m.2.2
        have : e.1.1 < m.1.1 := this
        omega
      refine ⟨m, Verif.Flux.mem_edgeList m, hU m, ?_, hfm, by rw [hsp]; exact hs, Or.inr ⟨e, hme, by rw [hsp]; rfl⟩⟩
      rintro ⟨m', hm', hlt'⟩
      rw [hme] at hm'; cases hm'; omega
    · exact ⟨e, Verif.Flux.mem_edgeList e, hU e, hl, hf, hs, Or.inl rfl⟩
  · rcases hts.attained with h' | ⟨e, _, _, _, hf, hs, h'⟩
    · exact Or.inl h'
    · exact Or.inr ⟨e, hf, hs, h'⟩

end Verif.ParRun
