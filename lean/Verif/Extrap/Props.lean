import Verif.Extrap.Lemmas
import Verif.Flux.PropsTwo

/-!
# Distribution step: depth protection, reconstruction bounds, lake at rest
-/

set_option linter.unusedSectionVars false

namespace Verif.Extrap

open Verif.Flux

variable {K : Type*} [Field K] [LinearOrder K] [IsStrictOrderedRing K] {N : ℕ}

/-! ## C13: lake at rest -/

theorem fluxCentral_rest (c : Consts K) (heps : 1 / 10 ^ 100 ≤ c.eps) (wl wr h hle hre n1 n2 ze : K)
    (hw : h ≠ 0 → max wl ze = max wr ze) :
    (fluxCentral c ⟨wl, 0, 0⟩ ⟨wr, 0, 0⟩ h h hle hre n1 n2 ze).flux = ⟨0, 0, 0⟩ ∧
      (fluxCentral c ⟨wl, 0, 0⟩ ⟨wr, 0, 0⟩ h h hle hre n1 n2 ze).press = 1 / 2 * c.g * (h * h) := by
  by_cases h0 : h = 0 ∧ h = 0
  · unfold fluxCentral
    rw [if_pos h0]
    refine ⟨rfl, ?_⟩
    rw [h0.1]; ring
  · have hmax := hw (fun hh => h0 ⟨hh, hh⟩)
    unfold fluxCentral
    rw [if_neg h0]
    have r1 : ∀ w : K, rotate ⟨w, 0, 0⟩ n1 n2 = ⟨w, 0, 0⟩ := by intro w; simp [rotate]
    have s1 : ∀ a b : K, sideVel a b 0 0 = (0, 0, 0, 0) := by
      intro a b; unfold sideVel; split_ifs <;> simp
    simp only [r1, s1]
    generalize localFr c 0 0 0 0 (c.sqrt (c.g * h)) (c.sqrt (c.g * h)) = fr
    generalize (if max (0 + c.sqrt (c.g * h)) (0 + c.sqrt (c.g * h)) < 0 then (0 : K) else
      max (0 + c.sqrt (c.g * h)) (0 + c.sqrt (c.g * h))) = smax
    generalize (if min (0 - c.sqrt (c.g * h)) (0 - c.sqrt (c.g * h)) > 0 then (0 : K) else
      min (0 - c.sqrt (c.g * h)) (0 - c.sqrt (c.g * h))) = smin
    by_cases hd : smax - smin < c.eps
    · rw [if_pos hd]
      exact ⟨rfl, by ring⟩
    · rw [if_neg hd]
      push Not at hd
      have h10 : (0 : K) < 1 / 10 ^ 100 := by positivity
      rw [max_eq_left (heps.trans hd), hmax]
      have hne : smax - smin ≠ 0 := by
        have : 0 < smax - smin := lt_of_lt_of_le h10 (heps.trans hd)
        exact ne_of_gt this
      refine ⟨?_, ?_⟩
      · simp only [rotate, Q3.mk.injEq]
        refine ⟨?_, ?_, ?_⟩ <;> ring
      · simp only
        field_simp

/-- One edge at rest: equal levels above the edge on both sides, no momentum. -/
theorem edgeCompute_rest (c : Consts K) (heps : 1 / 10 ^ 100 ≤ c.eps) (x : EdgeIn K) (wl wr : K)
    (hl : x.ql = ⟨wl, 0, 0⟩) (hr : x.qr = ⟨wr, 0, 0⟩)
    (hz : max (x.hle + x.zl - zHalf x) 0 = max (x.hre + x.zr - zHalf x) 0)
    (hq : max (x.hle + x.zl - zHalf x) 0 ≠ 0 → max wl (zHalf x) = max wr (zHalf x))
    (hw : ∀ elev p, x.wall = some (elev, p) → elev > max x.zcl x.zcr →
      max (x.wcl - zHalf x) 0 = max (x.wcr - zHalf x) 0) (hH : HeadsOk x)
    (hb : (x.hle + x.hcl) * (x.zl - x.zcl) = x.hcl * x.hcl - x.hle * x.hle) :
    (edgeCompute c x).flux = ⟨0, 0, 0⟩ ∧ (edgeCompute c x).pgl = x.len * (1 / 2 * c.g * (x.hcl * x.hcl)) := by
  have key := fluxCentral_rest c heps wl wr (max (x.hle + x.zl - zHalf x) 0) x.hle x.hre x.n1 x.n2 (zHalf x) hq
  unfold edgeCompute
  simp only [hl, hr, ← hz]
  generalize max (x.hle + x.zl - zHalf x) 0 = h at key hz hq ⊢
  generalize fluxCentral c ⟨wl, 0, 0⟩ ⟨wr, 0, 0⟩ h h x.hle x.hre x.n1 x.n2 (zHalf x) = o at key ⊢
  obtain ⟨k1, k2⟩ := key
  refine ⟨?_, ?_⟩
  · cases hx : x.wall with
    | none => simp [k1]
    | some ep =>
      obtain ⟨elev, p⟩ := ep
      unfold HeadsOk at hH
      rw [hx] at hH
      simp only
      split_ifs with c1 c2
      · have hab := hw _ _ hx c1
        have hH := hH hab
        rw [← hab]
        rw [← hab] at c2
        have hpos : 0 < max (x.wcl - zHalf x) 0 := by rcases c2 with h | h <;> exact h
        rcases hH with h | ⟨h1, h2⟩
        · exact absurd h (ne_of_gt hpos)
        · have hr1 : min (max (x.wcl - zHalf x) 0) (max (x.wcl - zHalf x) 0) /
              max (max (max (x.wcl - zHalf x) 0) (max (x.wcl - zHalf x) 0)) (1 / 10 ^ 100) = 1 := by
            rw [min_self, max_self, max_eq_left h1, div_self (ne_of_gt hpos)]
          unfold weir
          simp only [hr1, weirBlend_skip _ _ 1 _ p h2, k1]
          simp
      · simp [k1]
      · simp [k1]
  · simp only [k2]
    linear_combination x.len * (c.g * (1 / 2)) * hb

theorem zHalf_ge (x : EdgeIn K) : x.zl ≤ zHalf x ∧ x.zr ≤ zHalf x ∧ ∀ elev p, x.wall = some (elev, p) → elev ≤ zHalf x := by
  unfold zHalf
  cases x.wall with
  | none => exact ⟨le_max_left _ _, le_max_right _ _, by simp⟩
  | some ep =>
    refine ⟨(le_max_left _ _).trans (le_max_right _ _), (le_max_right _ _).trans (le_max_right _ _), ?_⟩
    rintro elev p h
    cases h
    exact le_max_left _ _

section Lake

variable (G : Geo N K) (p : Params K) (c : Cent N K) (W : K)

theorem lake_height (hL : Lake W c) (hv : p.vel = true ∨ ∀ k, c.h0 k = c.stage k - c.bed k) (k : Fin N) :
    height p c k = max (W - c.bed k) 0 := by
  have e : max W (c.bed k) - c.bed k = max (W - c.bed k) 0 := by
    rcases le_total W (c.bed k) with h | h
    · rw [max_eq_right h, max_eq_right (by linarith)]; ring
    · rw [max_eq_left h, max_eq_left (by linarith)]
  unfold height
  rcases hv with h | h
  · rw [if_pos h, hL.stage, e, max_eq_left (le_max_right _ _)]
  · split_ifs
    · rw [hL.stage, e, max_eq_left (le_max_right _ _)]
    · rw [h, hL.stage, e]

theorem lake_carried (hL : Lake W c) (k : Fin N) : carried G p c c.xm k = 0 ∧ carried G p c c.ym k = 0 := by
  unfold carried
  rw [hL.xm, hL.ym]
  constructor <;> split_ifs <;> simp

theorem lake_mom (hL : Lake W c) (e : Edge N) : (extrapolate G p c).xm e = 0 ∧ (extrapolate G p c).ym e = 0 := by
  have h := lake_carried G p c W hL
  unfold extrapolate
  simp only
  rw [extrap_const G (carried G p c c.xm) _ _ e.1 e.2 (fun j _ => by rw [(h j).1, (h e.1).1]),
    extrap_const G (carried G p c c.ym) _ _ e.1 e.2 (fun j _ => by rw [(h j).2, (h e.1).2]), (h e.1).1, (h e.1).2]
  constructor <;> split_ifs <;> simp

theorem corner_eq (q : Fin N → K) (beta : K) (e : Edge N) (hn : nb G e.1 = 2)
    (h : ∀ i m, G.nbr (e.1, i) = some m → Resolved G e.1 m.1 (q m.1 - q e.1)) :
    extrap G q beta p.betaW e.1 e.2 = q e.1 := by
  unfold extrap
  rw [if_neg (by omega), if_neg (by omega)]
  cases hin : inner G e.1 with
  | none => rfl
  | some k1 =>
    obtain ⟨_, i', m, hm, hk1⟩ := inner_spec G e.1 k1 hin
    have := h i' m hm
    rw [hk1] at this
    exact corner_const G q p.betaW e.1 k1 e.2 this

theorem corner_lake (hs : ∀ k, c.stage k = max W (c.bed k)) (e : Edge N) (hn : nb G e.1 = 2)
    (h : ∀ i m, G.nbr (e.1, i) = some m → Resolved G e.1 m.1 (max W (c.bed m.1) - max W (c.bed e.1))) (beta : K) :
    extrap G c.stage beta p.betaW e.1 e.2 = c.stage e.1 := by
  refine corner_eq G p c.stage beta e hn (fun i m hm => ?_)
  rw [hs, hs]
  exact h i m hm

/-- Under water the surface stays at `W` on all edges. -/
theorem lake_wet (hL : Lake W c) (hv : p.vel = true ∨ ∀ k, c.h0 k = c.stage k - c.bed k) (hm : 0 < p.minH)
    (hd : ShoresOk p W G c.bed) (hC : CornersOk W G c.bed) (e : Edge N) (hw : c.bed e.1 < W) :
    (extrapolate G p c).stage e = W := by
  have hk : c.stage e.1 = W := by rw [hL.stage, max_eq_left hw.le]
  unfold extrapolate
  simp only
  by_cases hn : nb G e.1 = 2
  · rw [corner_lake G p c W hL.stage e hn (fun i m hm' => ?_), hk]
    rcases hC e.1 i m (by rw [← nb_eq]; exact hn) hm' with h | h
    · rw [max_eq_left hw.le, max_eq_left (h.1 hw).le, sub_self]
      exact Or.inl rfl
    · exact h.1
  · rcases hd with hd | ⟨_, _, hCe, hT, _⟩
    · by_cases hb : betaTmp p.betaWDry p.betaW (hfactor G p c e.1) > 0
      · have hf : 0 < hfactor G p c e.1 := by
          rcases (hfactor_range G p c e.1 hm).1.lt_or_eq with h | h
          · exact h
          · unfold betaTmp at hb; rw [← h, hd] at hb; simp at hb
        obtain ⟨_, hs⟩ := hfactor_pos G p c e.1 hm hf
        rw [extrap_const, hk]
        rintro j (rfl | ⟨i, m, hm', rfl⟩)
        · rfl
        · have h1 := hs i
          have h2 : surr G (e.1, i) = m.1 := by unfold surr; rw [hm']
          rw [h2, lake_height p c W hL hv] at h1
          have h3 : 0 < max (W - c.bed m.1) 0 := hm.trans h1
          have h4 : c.bed m.1 < W := by
            by_contra hc; push Not at hc
            rw [max_eq_right (by linarith)] at h3; exact lt_irrefl _ h3
          rw [hk, hL.stage, max_eq_left h4.le]
      · rw [extrap_first G c.stage _ _ e.1 e.2 hb hn, hk]
    · have hsf : c.stage = fun k => max W (c.bed k) := funext hL.stage
      rw [extrap_min G hCe c.stage (by rw [hsf]; exact hT) _ _ e.1 e.2 hn (fun j _ => by
        rw [hk, hL.stage]; exact le_max_left _ _), hk]

/-- Dry triangles get zero depth at their edges; next to water their surface is not below `W`. -/
theorem lake_dry (hL : Lake W c) (hv : p.vel = true ∨ ∀ k, c.h0 k = c.stage k - c.bed k) (hm : 0 < p.minH)
    (hd : ShoresOk p W G c.bed) (hC : CornersOk W G c.bed) (e : Edge N) (hw : W ≤ c.bed e.1) :
    (extrapolate G p c).height e = 0 ∧
      ((∃ i m, G.nbr (e.1, i) = some m ∧ c.bed m.1 < W) → W ≤ (extrapolate G p c).stage e) := by
  have hh : height p c e.1 = 0 := by rw [lake_height p c W hL hv, max_eq_right (by linarith)]
  have hf : hfactor G p c e.1 = 0 := by
    rcases (hfactor_range G p c e.1 hm).1.lt_or_eq with h | h
    · have := (hfactor_pos G p c e.1 hm h).1
      rw [hh] at this; exact absurd hm (not_lt.2 this.le)
    · exact h.symm
  have hbt : betaTmp p.betaWDry p.betaW (hfactor G p c e.1) = p.betaWDry := by
    unfold betaTmp; rw [hf]; ring
  have hsf : c.stage = fun k => max W (c.bed k) := funext hL.stage
  have hhf : height p c = fun k => max (W - c.bed k) 0 := funext (lake_height p c W hL hv)
  unfold extrapolate
  simp only
  constructor
  · by_cases hn : nb G e.1 = 2
    · rw [corner_eq G p (height p c) _ e hn (fun i m hm' => ?_), hh]
      rw [lake_height p c W hL hv, lake_height p c W hL hv]
      rcases hC e.1 i m (by rw [← nb_eq]; exact hn) hm' with h | h
      · have h4 : W ≤ c.bed m.1 := by
          by_contra hc; push Not at hc
          exact absurd (h.2 hc) (not_lt.2 hw)
        rw [max_eq_right (by linarith), max_eq_right (by linarith), sub_self]
        exact Or.inl rfl
      · exact h.2
    · rcases hd with hd | ⟨_, _, hCe, _, hT⟩
      · rw [extrap_first G _ _ _ e.1 e.2 (by rw [hbt, hd]; exact lt_irrefl _) hn, hh]
      · rw [extrap_min G hCe (height p c) (by rw [hhf]; exact hT) _ _ e.1 e.2 hn (fun j _ => by
          rw [hh, hhf]; exact le_max_right _ _), hh]
  · rintro ⟨i, m, hm', hmw⟩
    have hse : c.stage e.1 = c.bed e.1 := by rw [hL.stage, max_eq_right hw]
    by_cases hn : nb G e.1 = 2
    · rw [corner_lake G p c W hL.stage e hn (fun i' m' hm'' => ?_), hse]
      · exact hw
      obtain rfl := corner_unique G e.1 hn hm' hm''
      rw [hm'] at hm''
      cases hm''
      rcases hC e.1 i m (by rw [← nb_eq]; exact hn) hm' with h | h
      · exact absurd (h.2 hmw) (not_lt.2 hw)
      · exact h.1
    · rcases hd with hd | ⟨h1, _, _, hT, _⟩
      · rw [extrap_first G c.stage _ _ e.1 e.2 (by rw [hbt, hd]; exact lt_irrefl _) hn, hse]
        exact hw
      · exact extrap_ge G c.stage (by rw [hsf]; exact hT) _ _ W (by rw [hbt]; exact h1) e.1 e.2 hn (fun j _ => by
          rw [hL.stage]; exact le_max_left _ _)

/-- The flux domain that results from distributing a lake at rest. -/
def lakeDom (base : Dom N K) (bv : Edge N → Q3 K) : Dom N K :=
  toDom base G { c with h0 := height p c } (extrapolate G p c) bv

theorem lake_own (cs : Consts K) (heps : 1 / 10 ^ 100 ≤ cs.eps) (base : Dom N K) (bv : Edge N → Q3 K)
    (hL : Lake W c) (hv : p.vel = true ∨ ∀ k, c.h0 k = c.stage k - c.bed k) (hm : 0 < p.minH)
    (hd : ShoresOk p W G c.bed) (hC : CornersOk W G c.bed) (hS : Symmetric G.nbr)
    (hbv : ∀ e, G.nbr e = none → bv e = ⟨(extrapolate G p c).stage e, 0, 0⟩)
    (hnw : ∀ e, G.nbr e = none → base.wall e = false)
    (hH : ∀ e, HeadsOk (edgeIn (lakeDom G p c base bv) e (wallRank (lakeDom G p c base bv) e - 1))) (e : Edge N) :
    (own cs (lakeDom G p c base bv) e).flux = ⟨0, 0, 0⟩ ∧
      (own cs (lakeDom G p c base bv) e).pgl = base.len e * (1 / 2 * cs.g * (height p c e.1 * height p c e.1)) := by
  have hmom := lake_mom G p c W hL
  have hq : ∀ e, (lakeDom G p c base bv).qE e = ⟨(extrapolate G p c).stage e, 0, 0⟩ := by
    intro e
    have := hmom e
    change (⟨(extrapolate G p c).stage e, (extrapolate G p c).xm e, (extrapolate G p c).ym e⟩ : Q3 K) = _
    rw [this.1, this.2]
  have hbed : ∀ e, (extrapolate G p c).bed e = (extrapolate G p c).stage e - (extrapolate G p c).height e := fun _ => rfl
  have hwet := lake_wet G p c W hL hv hm hd hC
  have hdry := lake_dry G p c W hL hv hm hd hC
  have hht := lake_height p c W hL hv
  have hst := hL.stage
  -- the term in the pressure gradient
  have hb : ∀ e : Edge N, ((extrapolate G p c).height e + height p c e.1) * ((extrapolate G p c).bed e - c.bed e.1) =
      height p c e.1 * height p c e.1 - (extrapolate G p c).height e * (extrapolate G p c).height e := by
    intro e
    rw [hbed]
    rcases lt_or_ge (c.bed e.1) W with h | h
    · rw [hwet e h, hht, max_eq_left (by linarith)]; ring
    · rw [(hdry e h).1, hht, max_eq_right (by linarith)]; ring
  have hHe := hH e
  unfold own
  generalize hwn : wallRank (lakeDom G p c base bv) e - 1 = wn at hHe ⊢
  cases hn : G.nbr e with
  | none =>
    have hn' : (lakeDom G p c base bv).nbr e = none := hn
    have hwall : (lakeDom G p c base bv).wall e = false := hnw e hn
    have hin : edgeIn (lakeDom G p c base bv) e wn =
        { ql := ⟨(extrapolate G p c).stage e, 0, 0⟩, qr := ⟨(extrapolate G p c).stage e, 0, 0⟩,
          zl := (extrapolate G p c).bed e, zr := (extrapolate G p c).bed e, hle := (extrapolate G p c).height e,
          hre := max ((extrapolate G p c).stage e - (extrapolate G p c).bed e) 0, hcl := height p c e.1,
          hcr := height p c e.1, zcl := c.bed e.1, zcr := c.bed e.1, wcl := c.stage e.1,
          wcr := height p c e.1 + (extrapolate G p c).bed e, n1 := (base.normal e).1, n2 := (base.normal e).2,
          len := base.len e, wall := none } := by
      unfold edgeIn
      simp only [hn', hq, hwall]
      have : (lakeDom G p c base bv).bval e = ⟨(extrapolate G p c).stage e, 0, 0⟩ := hbv e hn
      rw [this]
      rfl
    rw [hin] at hHe ⊢
    refine edgeCompute_rest cs heps _ _ _ rfl rfl ?_ (fun _ => rfl) ?_ hHe (hb e)
    · simp only [zHalf, max_self]
      rw [hbed]
      generalize (extrapolate G p c).height e = a
      generalize (extrapolate G p c).stage e = b
      rw [show a + (b - a) - (b - a) = a by ring, show b - (b - a) = a by ring,
        show max a 0 + (b - a) - (b - a) = max a 0 by ring, max_eq_left (le_max_right a 0)]
    · intro elev q h; simp at h
  | some m =>
    have hn' : (lakeDom G p c base bv).nbr e = some m := hn
    generalize hwl : (if base.wall e then some (base.wallElev wn, base.wallProps wn) else none) = wl
    have hin : edgeIn (lakeDom G p c base bv) e wn =
        { ql := ⟨(extrapolate G p c).stage e, 0, 0⟩, qr := ⟨(extrapolate G p c).stage m, 0, 0⟩,
          zl := (extrapolate G p c).bed e, zr := (extrapolate G p c).bed m, hle := (extrapolate G p c).height e,
          hre := (extrapolate G p c).height m, hcl := height p c e.1,
          hcr := height p c m.1, zcl := c.bed e.1, zcr := c.bed m.1, wcl := c.stage e.1,
          wcr := c.stage m.1, n1 := (base.normal e).1, n2 := (base.normal e).2,
          len := base.len e, wall := wl } := by
      unfold edgeIn
      simp only [hn', hq]
      rw [← hwl]
      rfl
    generalize edgeIn (lakeDom G p c base bv) e wn = x at hin hHe ⊢
    have hx := hin.symm
    clear hin
    obtain ⟨z1, z2, z3⟩ := zHalf_ge x
    have hcl : x.hcl = height p c e.1 := by rw [← hx]
    have hlen : x.len = base.len e := by rw [← hx]
    rw [← hcl, ← hlen]
    refine edgeCompute_rest cs heps x _ _ (by rw [← hx]) (by rw [← hx]) ?_ ?_ ?_ hHe (by rw [← hx]; exact hb e)
    · -- levels
      have e1 : x.hle + x.zl = (extrapolate G p c).stage e := by rw [← hx]; simp only [hbed e]; ring
      have e2 : x.hre + x.zr = (extrapolate G p c).stage m := by rw [← hx]; simp only [hbed m]; ring
      have e3 : x.zl = (extrapolate G p c).stage e - (extrapolate G p c).height e := by rw [← hx]; exact hbed e
      have e4 : x.zr = (extrapolate G p c).stage m - (extrapolate G p c).height m := by rw [← hx]; exact hbed m
      rw [e1, e2]
      rcases lt_or_ge (c.bed e.1) W with h | h <;> rcases lt_or_ge (c.bed m.1) W with h' | h'
      · rw [hwet e h, hwet m h']
      · have hnb : ∃ i m', G.nbr (m.1, i) = some m' ∧ c.bed m'.1 < W := ⟨m.2, e, (hS e m hn).1, h⟩
        have d := hdry m h'
        have d2 := d.2 hnb
        rw [d.1] at e4
        rw [hwet e h, max_eq_right (by linarith), max_eq_right (by linarith)]
      · have hnb : ∃ i m', G.nbr (e.1, i) = some m' ∧ c.bed m'.1 < W := ⟨e.2, m, hn, h'⟩
        have d := hdry e h
        have d2 := d.2 hnb
        rw [d.1] at e3
        rw [hwet m h', max_eq_right (by linarith), max_eq_right (by linarith)]
      · rw [(hdry e h).1] at e3
        rw [(hdry m h').1] at e4
        rw [max_eq_right (by linarith), max_eq_right (by linarith)]
    · intro hne
      have e1 : x.hle + x.zl = (extrapolate G p c).stage e := by rw [← hx]; simp only [hbed e]; ring
      have e3 : x.zl = (extrapolate G p c).stage e - (extrapolate G p c).height e := by rw [← hx]; exact hbed e
      have e4 : x.zr = (extrapolate G p c).stage m - (extrapolate G p c).height m := by rw [← hx]; exact hbed m
      rw [e1] at hne
      rcases lt_or_ge (c.bed e.1) W with h | h
      · rcases lt_or_ge (c.bed m.1) W with h' | h'
        · rw [hwet e h, hwet m h']
        · exfalso
          have hnb : ∃ i m', G.nbr (m.1, i) = some m' ∧ c.bed m'.1 < W := ⟨m.2, e, (hS e m hn).1, h⟩
          have d := hdry m h'
          have d2 := d.2 hnb
          rw [d.1] at e4
          rw [hwet e h, max_eq_right (by linarith)] at hne
          exact hne rfl
      · exfalso
        rw [(hdry e h).1] at e3
        rw [max_eq_right (by linarith)] at hne
        exact hne rfl
    · intro elev q hwq hel
      have z3' := z3 elev q hwq
      have e5 : x.wcl = c.stage e.1 := by rw [← hx]
      have e6 : x.wcr = c.stage m.1 := by rw [← hx]
      have e7 : x.zcl = c.bed e.1 := by rw [← hx]
      have e8 : x.zcr = c.bed m.1 := by rw [← hx]
      rw [e7, e8] at hel
      have h1 : c.bed e.1 < elev := lt_of_le_of_lt (le_max_left _ _) hel
      have h2 : c.bed m.1 < elev := lt_of_le_of_lt (le_max_right _ _) hel
      have hlev : ∀ k, c.bed k < elev → max (c.stage k - zHalf x) 0 = max (W - zHalf x) 0 := by
        intro k hk
        rw [hst]
        rcases le_total W (c.bed k) with hh | hh
        · rw [max_eq_right hh, max_eq_right (by linarith), max_eq_right (by linarith)]
        · rw [max_eq_left hh]
      rw [e5, e6, hlev _ h1, hlev _ h2]

/-- C13: a lake at rest receives zero updates of stage and momentum from the flux computation, in any call and substep, on
any mesh with agreeing edge geometry, over any bed (wet, dry and partly dry), with or without interior river walls, for
every scheme whose limiter parameters at dry triangles are zero or whose parameters are at most one. The boundary repeats
the inside level (reflective or transmissive). -/
theorem C13_lake_at_rest (cs : Consts K) (heps : 1 / 10 ^ 100 ≤ cs.eps) (base : Dom N K) (bv : Edge N → Q3 K)
    (hL : Lake W c) (hv : p.vel = true ∨ ∀ k, c.h0 k = c.stage k - c.bed k) (hm : 0 < p.minH)
    (hd : ShoresOk p W G c.bed) (hC : CornersOk W G c.bed)
    (hbv : ∀ e, G.nbr e = none → bv e = ⟨(extrapolate G p c).stage e, 0, 0⟩)
    (hnw : ∀ e, G.nbr e = none → base.wall e = false)
    (hG : Conforming (lakeDom G p c base bv)) (hcl : Closed base)
    (hH : ∀ e, HeadsOk (edgeIn (lakeDom G p c base bv) e (wallRank (lakeDom G p c base bv) e - 1)))
    (hU : ∀ e, base.update e = true)
    (call : ℤ) (first : Bool) (dt : K) (s0 : FSt N K) (hM : ∀ e, s0.mark e < call) (k : Fin N) :
    (computeFluxes cs (lakeDom G p c base bv) call first dt s0).upd k = ⟨0, 0, 0⟩ := by
  obtain ⟨hw, hp⟩ := work_all cs (lakeDom G p c base bv) hG hH hU call first dt s0 hM
  have ho := lake_own G p c W cs heps base bv hL hv hm hd hC hG.symm hbv hnw hH
  have : (computeFluxes cs (lakeDom G p c base bv) call first dt s0).upd k =
    sumUp (lakeDom G p c base bv) (computeFluxes cs (lakeDom G p c base bv) call first dt s0).st.work
      (computeFluxes cs (lakeDom G p c base bv) call first dt s0).st.pg k := rfl
  rw [this, hw, hp]
  unfold sumUp
  obtain ⟨c1, c2⟩ := hcl k
  have hn : ∀ e, (lakeDom G p c base bv).normal e = base.normal e := fun _ => rfl
  have f1 : ∑ i, (((own cs (lakeDom G p c base bv) (k, i)).flux.neg).x -
      ((lakeDom G p c base bv).normal (k, i)).1 * (own cs (lakeDom G p c base bv) (k, i)).pgl) = 0 := by
    have : ∀ i, (((own cs (lakeDom G p c base bv) (k, i)).flux.neg).x -
      ((lakeDom G p c base bv).normal (k, i)).1 * (own cs (lakeDom G p c base bv) (k, i)).pgl) =
      -(1 / 2 * cs.g * (height p c k * height p c k)) * (base.len (k, i) * (base.normal (k, i)).1) := by
      intro i
      rw [(ho (k, i)).1, (ho (k, i)).2, hn]
      simp only [Q3.neg]; ring
    simp only [this]
    rw [← Finset.mul_sum, c1, mul_zero]
  have f2 : ∑ i, (((own cs (lakeDom G p c base bv) (k, i)).flux.neg).y -
      ((lakeDom G p c base bv).normal (k, i)).2 * (own cs (lakeDom G p c base bv) (k, i)).pgl) = 0 := by
    have : ∀ i, (((own cs (lakeDom G p c base bv) (k, i)).flux.neg).y -
      ((lakeDom G p c base bv).normal (k, i)).2 * (own cs (lakeDom G p c base bv) (k, i)).pgl) =
      -(1 / 2 * cs.g * (height p c k * height p c k)) * (base.len (k, i) * (base.normal (k, i)).2) := by
      intro i
      rw [(ho (k, i)).1, (ho (k, i)).2, hn]
      simp only [Q3.neg]; ring
    simp only [this]
    rw [← Finset.mul_sum, c2, mul_zero]
  have f0 : ∑ i, ((own cs (lakeDom G p c base bv) (k, i)).flux.neg).w = 0 := by
    refine Finset.sum_eq_zero (fun i _ => ?_)
    rw [(ho (k, i)).1]
    simp [Q3.neg]
  simp only [f0, f1, f2, zero_mul]

end Lake

end Verif.Extrap
