import Verif.ParRun.LemmasFlux

/-!
# One substep on one processor
-/

set_option linter.unusedSectionVars false

namespace Verif.ParRun

open Verif.Flux (Q3 Edge Dom Consts FSt computeFluxes Method stepOf own sumUp)
open Verif.Extrap
open Verif.Quantity (updateAll)

variable {K : Type*} [Field K] [LinearOrder K] [IsStrictOrderedRing K] {N n : ℕ}

variable {W : World N K} {v : World n K} {φ : Fin n → Fin N} {D : Fin N → Prop} {q : Fin n × Fin 3 → K} {Q : Fin N × Fin 3 → K}

theorem distribute_h0 (G : Geo N K) (p : Params K) (hv : p.vel = true) (area : Fin N → K) (c : Cent N K) (x : Fin N → K) :
    distribute G p area { c with h0 := x } = distribute G p area c := by
  have hh : height p (protect p.minH area { c with h0 := x }).1 = height p (protect p.minH area c).1 := by
    funext k
    simp only [height, hv, if_true]
    rfl
  have hi : isolated G p (protect p.minH area { c with h0 := x }).1 = isolated G p (protect p.minH area c).1 := by
    funext k; unfold isolated; rw [hh]
  have hf : hfactor G p (protect p.minH area { c with h0 := x }).1 = hfactor G p (protect p.minH area c).1 := by
    funext k; unfold hfactor; rw [hh]
  have hr : ∀ m, restored G p (protect p.minH area { c with h0 := x }).1 m = restored G p (protect p.minH area c).1 m := by
    intro m; funext k; unfold restored; rw [hh, hi]
  have hc : ∀ m, carried G p (protect p.minH area { c with h0 := x }).1 m = carried G p (protect p.minH area c).1 m := by
    intro m; funext k; unfold carried; rw [hh, hi]
  unfold distribute extrapolate
  simp only [hh, hf, hr, hc]
  rfl

theorem cent_state (bed : Fin N → K) (c : Cent N K) (hb : c.bed = bed) : cent bed (state c) = { c with h0 := fun _ => 0 } := by
  subst hb; rfl

theorem distribute_bed (G : Geo N K) (p : Params K) (area : Fin N → K) (c : Cent N K) : (distribute G p area c).1.bed = c.bed := rfl

/-- Distribution after distribution. -/
theorem again (h : Plain W) (Q : Fin N × Fin 3 → K) :
    distribute W.G W.p W.base.area (cent W.bed (W.env.distribute Q)) = distribute W.G W.p W.base.area (cent W.bed Q) := by
  show distribute W.G W.p W.base.area (cent W.bed (state (distribute W.G W.p W.base.area (cent W.bed Q)).1)) = _
  rw [cent_state W.bed (distribute W.G W.p W.base.area (cent W.bed Q)).1 rfl, distribute_h0 _ _ h.vel, distribute_idem _ _ h.vel h.minH]

theorem dist_dist (h : Plain W) (Q : Fin N × Fin 3 → K) : W.env.distribute (W.env.distribute Q) = W.env.distribute Q := by
  show state (distribute W.G W.p W.base.area (cent W.bed (W.env.distribute Q))).1 = _
  rw [again h]; rfl

theorem dom_dist (h : Plain W) (t : K) (Q : Fin N × Fin 3 → K) : W.dom t (W.env.distribute Q) = W.dom t Q := by
  unfold World.dom
  rw [again h]

/-- The repair changes nothing that distribution would keep. -/
theorem dist_post (h : Plain W) (Q : Fin N × Fin 3 → K) : W.env.distribute (W.env.post Q) = W.env.distribute Q := by
  have key : (protect W.p.minH W.base.area (cent W.bed (W.env.post Q))).1 = (protect W.p.minH W.base.area (cent W.bed Q)).1 := by
    have cell : ∀ k, (protectCell W.p.minH ((fixNegative W.base.full (cent W.bed Q)).1.stage k) (W.bed k)
        ((fixNegative W.base.full (cent W.bed Q)).1.xm k) ((fixNegative W.base.full (cent W.bed Q)).1.ym k) (W.base.area k)).stage =
          (protectCell W.p.minH (Q (k, 0)) (W.bed k) (Q (k, 1)) (Q (k, 2)) (W.base.area k)).stage ∧
        (protectCell W.p.minH ((fixNegative W.base.full (cent W.bed Q)).1.stage k) (W.bed k)
        ((fixNegative W.base.full (cent W.bed Q)).1.xm k) ((fixNegative W.base.full (cent W.bed Q)).1.ym k) (W.base.area k)).xm =
          (protectCell W.p.minH (Q (k, 0)) (W.bed k) (Q (k, 1)) (Q (k, 2)) (W.base.area k)).xm ∧
        (protectCell W.p.minH ((fixNegative W.base.full (cent W.bed Q)).1.stage k) (W.bed k)
        ((fixNegative W.base.full (cent W.bed Q)).1.xm k) ((fixNegative W.base.full (cent W.bed Q)).1.ym k) (W.base.area k)).ym =
          (protectCell W.p.minH (Q (k, 0)) (W.bed k) (Q (k, 1)) (Q (k, 2)) (W.base.area k)).ym := by
      intro k
      have hm := h.minH
      simp only [fixNegative]
      by_cases hb : (decide ((cent W.bed Q).stage k - (cent W.bed Q).bed k < 0) && W.base.full k) = true
      · rw [if_pos hb, if_pos hb, if_pos hb]
        rw [Bool.and_eq_true, decide_eq_true_eq] at hb
        have hneg : Q (k, 0) - W.bed k < 0 := hb.1
        have e1 : (cent W.bed Q).bed k = W.bed k := rfl
        rw [e1]
        have hlt : Q (k, 0) < W.bed k := by linarith
        simp only [protectCell, sub_self, hm, if_true, le_refl, lt_irrefl, if_false, hneg.trans hm, hneg.le, hlt]
        exact ⟨trivial, trivial, trivial⟩
      · rw [if_neg hb, if_neg hb, if_neg hb]
        exact ⟨rfl, rfl, rfl⟩
    have : ∀ a b : Cent N K, a.stage = b.stage → a.bed = b.bed → a.xm = b.xm → a.ym = b.ym → a.h0 = b.h0 → a = b := by
      rintro ⟨⟩ ⟨⟩ rfl rfl rfl rfl rfl; rfl
    exact this _ _ (funext fun k => (cell k).1) rfl (funext fun k => (cell k).2.1) (funext fun k => (cell k).2.2) rfl
  show state (distribute W.G W.p W.base.area (cent W.bed (W.env.post Q))).1 = state (distribute W.G W.p W.base.area (cent W.bed Q)).1
  unfold distribute
  simp only [key]

/-- Explicit updates. -/
theorem expl_on (c : Copy W v φ) (h : Plain W) {r : ℕ} (hr : Reaches r W v φ) (hD : Held φ D) (ha : Agree φ D q Q) (t : K)
    (k : Fin n) (hk : inns W.G.nbr r D (φ k)) (j : Fin 3) :
    v.env.expl t (v.env.distribute q) (k, j) = W.env.expl t (W.env.distribute Q) (φ k, j) := by
  have hv := c.plain h
  have e : (computeFluxes v.cs (v.dom t (v.env.distribute q)) (v.call t (v.env.distribute q)) (v.first t (v.env.distribute q)) 0
      (v.arr t (v.env.distribute q))).upd k = (computeFluxes W.cs (W.dom t (W.env.distribute Q)) (W.call t (W.env.distribute Q))
      (W.first t (W.env.distribute Q)) 0 (W.arr t (W.env.distribute Q))).upd (φ k) := by
    show sumUp _ _ _ _ = sumUp _ _ _ _
    obtain ⟨a1, a2⟩ := Verif.Flux.work_all v.cs _ (hv.conforming t (v.env.distribute q)) (fun e => hv.heads t _ e _) hv.update
      (v.call t (v.env.distribute q)) (v.first t (v.env.distribute q)) 0 (v.arr t (v.env.distribute q)) (hv.marks t _)
    obtain ⟨b1, b2⟩ := Verif.Flux.work_all W.cs _ (h.conforming t (W.env.distribute Q)) (fun e => h.heads t _ e _) h.update
      (W.call t (W.env.distribute Q)) (W.first t (W.env.distribute Q)) 0 (W.arr t (W.env.distribute Q)) (h.marks t _)
    have s1 : ∀ i, own v.cs (v.dom t (v.env.distribute q)) (k, i) = own W.cs (W.dom t (W.env.distribute Q)) (φ k, i) := by
      intro i
      rw [dom_dist hv, dom_dist h]
      exact hr t q Q D hD ha k i hk
    have ar : (v.dom t (v.env.distribute q)).area k = (W.dom t (W.env.distribute Q)).area (φ k) := c.area k
    have nr : ∀ i, (v.dom t (v.env.distribute q)).normal (k, i) = (W.dom t (W.env.distribute Q)).normal (φ k, i) := c.normal k
    change (computeFluxes v.cs (v.dom t (v.env.distribute q)) (v.call t (v.env.distribute q)) (v.first t (v.env.distribute q)) 0
      (v.arr t (v.env.distribute q))).st.work = _ at a1
    unfold sumUp
    have w1 := a1
    have w2 := b1
    have p1 := a2
    have p2 := b2
    unfold computeFluxes at w1 w2 p1 p2
    simp only at w1 w2 p1 p2
    rw [w1, w2, p1, p2, ar]
    simp only [s1, nr]
  show ![_, _, _] j = ![_, _, _] j
  rw [e]

/-- Explicit updates of a triangle from its own edges. -/
def explOwn (w : World N K) (t : K) (Q : Fin N × Fin 3 → K) (k : Fin N) : Q3 K :=
  let D := w.dom t Q
  sumUp D (fun e => (own w.cs D e).flux.neg) (fun e => (own w.cs D e).pgl) k

theorem expl_own (h : Plain W) (t : K) (k : Fin N) (j : Fin 3) :
    W.env.expl t (W.env.distribute Q) (k, j) = ![(explOwn W t Q k).w, (explOwn W t Q k).x, (explOwn W t Q k).y] j := by
  have e : (computeFluxes W.cs (W.dom t (W.env.distribute Q)) (W.call t (W.env.distribute Q))
      (W.first t (W.env.distribute Q)) 0 (W.arr t (W.env.distribute Q))).upd k = explOwn W t Q k := by
    obtain ⟨b1, b2⟩ := Verif.Flux.work_all W.cs _ (h.conforming t (W.env.distribute Q)) (fun e => h.heads t _ e _) h.update
      (W.call t (W.env.distribute Q)) (W.first t (W.env.distribute Q)) 0 (W.arr t (W.env.distribute Q)) (h.marks t _)
    unfold computeFluxes at b1 b2
    simp only at b1 b2
    unfold computeFluxes explOwn
    simp only
    rw [b1, b2, dom_dist h]
  show ![_, _, _] j = ![_, _, _] j
  rw [e]

/-- Semi-implicit updates. -/
theorem semi_on (c : Copy W v φ) (t : K) (k : Fin n) (ha : ∀ j, q (k, j) = Q (φ k, j)) (j : Fin 3) :
    v.env.semi t q (k, j) = W.env.semi t Q (φ k, j) := by
  have hc : v.cell q k = W.cell Q (φ k) := by
    unfold World.cell
    rw [ha, ha, ha, c.bed, c.fr]
  show ![_, _, _] j = ![_, _, _] j
  simp only [c.fc, c.sloped, hc]

/-- Friction never makes the update fail. -/
theorem semi_ok (h : Plain W) (t dt : K) (hdt : 0 ≤ dt) (Q : Fin N × Fin 3 → K) (i : Fin N × Fin 3) :
    0 < 1 - dt * (if Q i = 0 then 0 else W.env.semi t Q i / Q i) := by
  have key : (if Q i = 0 then 0 else W.env.semi t Q i / Q i) ≤ 0 := by
    split_ifs with h0
    · exact le_refl _
    · obtain ⟨r, hr, _, _, hneg⟩ := Verif.Friction.C16_manning_law W.fc h.phys W.sloped (W.cell Q i.1) (0, 0)
      obtain ⟨k, j⟩ := i
      have e : W.env.semi t Q (k, j) = ![0, r * Q (k, 1), r * Q (k, 2)] j := by
        show ![_, _, _] j = _
        simp only at hr
        simp only [hr, zero_add]
        rfl
      rw [e]
      rcases fin3 j with rfl | rfl | rfl
      · simp
      · show r * Q (k, 1) / Q (k, 1) ≤ 0
        rw [mul_div_cancel_right₀ _ h0]; exact hneg
      · show r * Q (k, 2) / Q (k, 2) ≤ 0
        rw [mul_div_cancel_right₀ _ h0]; exact hneg
  nlinarith [mul_nonneg hdt (neg_nonneg.mpr key)]

/-- What one update makes of a state. -/
def advance (w : World N K) (t dt : K) (Q : Fin N × Fin 3 → K) : Fin N × Fin 3 → K := fun i =>
  (w.env.distribute Q i + dt * w.env.expl t (w.env.distribute Q) i) /
    (1 - dt * (if w.env.distribute Q i = 0 then 0 else w.env.semi t (w.env.distribute Q) i / w.env.distribute Q i))

/-- The same from the edges of the triangle alone. -/
def advanceOwn (w : World N K) (t dt : K) (Q : Fin N × Fin 3 → K) : Fin N × Fin 3 → K := fun i =>
  (w.env.distribute Q i + dt * ![(explOwn w t Q i.1).w, (explOwn w t Q i.1).x, (explOwn w t Q i.1).y] i.2) /
    (1 - dt * (if w.env.distribute Q i = 0 then 0 else w.env.semi t (w.env.distribute Q) i / w.env.distribute Q i))

theorem advance_own (h : Plain W) (t dt : K) (Q : Fin N × Fin 3 → K) : advance W t dt Q = advanceOwn W t dt Q := by
  funext ⟨k, j⟩
  unfold advance advanceOwn
  rw [expl_own h]

theorem updateAll_eq (h : Plain W) (t dt : K) (hdt : 0 ≤ dt) (Q : Fin N × Fin 3 → K) :
    updateAll dt (W.env.distribute Q) (W.env.expl t (W.env.distribute Q)) (W.env.semi t (W.env.distribute Q)) =
      some (advance W t dt Q) := by
  unfold updateAll
  simp only
  rw [if_pos (fun i => semi_ok h t dt hdt (W.env.distribute Q) i)]
  rfl

/-- States that the next substep cannot tell apart from states agreeing on `D`. -/
def Same (W : World N K) (v : World n K) (φ : Fin n → Fin N) (D : Fin N → Prop) (q : Fin n × Fin 3 → K) (Q : Fin N × Fin 3 → K) : Prop :=
  ∃ q' Q', v.env.distribute q = v.env.distribute q' ∧ W.env.distribute Q = W.env.distribute Q' ∧ Agree φ D q' Q'

theorem Same.of_agree (h : Agree φ D q Q) : Same W v φ D q Q := ⟨q, Q, rfl, rfl, h⟩

theorem Same.dist (hv : Plain v) (h : Plain W) (hs : Same W v φ D q Q) :
    Same W v φ D (v.env.distribute q) (W.env.distribute Q) := by
  obtain ⟨q', Q', a, b, c⟩ := hs
  exact ⟨q', Q', by rw [dist_dist hv, a], by rw [dist_dist h, b], c⟩

theorem Same.post (hv : Plain v) (h : Plain W) (hs : Same W v φ D q Q) : Same W v φ D (v.env.post q) (W.env.post Q) := by
  obtain ⟨q', Q', a, b, c⟩ := hs
  exact ⟨q', Q', by rw [dist_post hv, a], by rw [dist_post h, b], c⟩

theorem Same.agree_dist (c : Copy W v φ) (h : Plain W) (hD : Held φ D) (hs : Same W v φ D q Q) :
    Agree φ (inn W.G.nbr D) (v.env.distribute q) (W.env.distribute Q) := by
  obtain ⟨q', Q', a, b, e⟩ := hs
  rw [a, b]
  exact dist_on c h hD e

theorem Same.mono {E : Fin N → Prop} (hE : ∀ T, E T → D T) (hs : Same W v φ D q Q) : Same W v φ E q Q := by
  obtain ⟨q', Q', a, b, e⟩ := hs
  exact ⟨q', Q', a, b, fun k hk j => e k (hE _ hk) j⟩

/-- One substep costs `r` layers. -/
theorem advance_on (c : Copy W v φ) (h : Plain W) {r : ℕ} (h1 : 1 ≤ r) (hr : Reaches r W v φ) (hD : Held φ D)
    (hs : Same W v φ D q Q) (t dt : K) : Agree φ (inns W.G.nbr r D) (advance v t dt q) (advance W t dt Q) := by
  have hd := hs.agree_dist c h hD
  obtain ⟨q', Q', a, b, e⟩ := hs
  intro k hk j
  have hk1 : inn W.G.nbr D (φ k) := inns_le (a := 1) h1 _ hk
  have d := hd k hk1
  unfold advance
  rw [semi_on c t k d j, d j]
  rw [a, b, expl_on c h hr hD e t k hk j]

/-- The repair of own triangles. -/
theorem post_own (c : Copy W v φ) (hf : ∀ T, W.base.full T = true) (k : Fin n) (hk : v.base.full k = true)
    (ha : ∀ j, q (k, j) = Q (φ k, j)) (j : Fin 3) : v.env.post q (k, j) = W.env.post Q (φ k, j) := by
  have h0 := ha 0
  have h1 := ha 1
  have h2 := ha 2
  show state (fixNegative v.base.full (cent v.bed q)).1 (k, j) = state (fixNegative W.base.full (cent W.bed Q)).1 (φ k, j)
  have hb : (decide ((cent v.bed q).stage k - (cent v.bed q).bed k < 0) && v.base.full k) =
      (decide ((cent W.bed Q).stage (φ k) - (cent W.bed Q).bed (φ k) < 0) && W.base.full (φ k)) := by
    rw [hk, hf]
    show (decide (q (k, 0) - v.bed k < 0) && true) = (decide (Q (φ k, 0) - W.bed (φ k) < 0) && true)
    rw [h0, c.bed]
  rcases fin3 j with rfl | rfl | rfl
  · show (if _ then v.bed k else q (k, 0)) = if _ then W.bed (φ k) else Q (φ k, 0)
    simp only [hb, h0, c.bed]
  · show (if _ then 0 else q (k, 1)) = if _ then 0 else Q (φ k, 1)
    simp only [hb, h1]
  · show (if _ then 0 else q (k, 2)) = if _ then 0 else Q (φ k, 2)
    simp only [hb, h2]

end Verif.ParRun
