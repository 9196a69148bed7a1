import Verif.ParRun.Model
import Verif.Extrap.PropsLake

/-!
# What a processor computes correctly although values further out are wrong
-/

set_option linter.unusedSectionVars false

namespace Verif.ParRun

open Verif.Flux (Q3 Edge Dom Consts FSt computeFluxes Method stepOf Conforming HeadsOk wallRank edgeIn own)
open Verif.Extrap

variable {K : Type*} [Field K] [LinearOrder K] [IsStrictOrderedRing K] {N n : ℕ}

/-- Triangles of `D` all of whose neighbours are in `D`. -/
def inn (g : Edge N → Option (Edge N)) (D : Fin N → Prop) (T : Fin N) : Prop := D T ∧ ∀ i M, g (T, i) = some M → D M.1

/-- The same, repeated. -/
def inns (g : Edge N → Option (Edge N)) : ℕ → (Fin N → Prop) → Fin N → Prop
  | 0, D => D
  | r + 1, D => inn g (inns g r D)

theorem inns_add (g : Edge N → Option (Edge N)) (a b : ℕ) (D : Fin N → Prop) : inns g (a + b) D = inns g a (inns g b D) := by
  induction a with
  | zero => rw [Nat.zero_add]; rfl
  | succ a ih => rw [Nat.succ_add]; show inn g _ = inn g _; rw [ih]

theorem inn_mono {g : Edge N → Option (Edge N)} {D E : Fin N → Prop} (h : ∀ T, D T → E T) (T : Fin N) (hT : inn g D T) : inn g E T :=
  ⟨h _ hT.1, fun i M hM => h _ (hT.2 i M hM)⟩

theorem inns_le {g : Edge N → Option (Edge N)} {D : Fin N → Prop} {a b : ℕ} (h : a ≤ b) (T : Fin N) (hT : inns g b D T) :
    inns g a D T := by
  induction b with
  | zero => obtain rfl : a = 0 := by omega
            exact hT
  | succ b ih =>
    rcases Nat.lt_or_ge a (b + 1) with hlt | hge
    · exact ih (by omega) hT.1
    · obtain rfl : a = b + 1 := by omega
      exact hT

/-- A local mesh inside the serial one. -/
structure Piece (g : Edge N → Option (Edge N)) (l : Edge n → Option (Edge n)) (φ : Fin n → Fin N) : Prop where
  inj : ∀ k k', φ k = φ k' → k = k'
  down : ∀ k i m j, l (k, i) = some (m, j) → g (φ k, i) = some (φ m, j)
  up : ∀ k i m j, g (φ k, i) = some (φ m, j) → l (k, i) = some (m, j)

/-- Every triangle of `D` is held. -/
def Held (φ : Fin n → Fin N) (D : Fin N → Prop) : Prop := ∀ T, D T → ∃ k, φ k = T

/-- Two functions agree on `D`. -/
def On {α : Type*} (φ : Fin n → Fin N) (D : Fin N → Prop) (f : Fin n → α) (F : Fin N → α) : Prop := ∀ k, D (φ k) → f k = F (φ k)

/-- The geometry of a local mesh. -/
structure SameGeo (G : Geo N K) (H : Geo n K) (φ : Fin n → Fin N) : Prop where
  piece : Piece G.nbr H.nbr φ
  cx : ∀ k, H.cx k = G.cx (φ k)
  cy : ∀ k, H.cy k = G.cy (φ k)
  ex : ∀ k i, H.ex (k, i) = G.ex (φ k, i)
  ey : ∀ k i, H.ey (k, i) = G.ey (φ k, i)

variable {G : Geo N K} {H : Geo n K} {φ : Fin n → Fin N} {D : Fin N → Prop}

theorem Piece.nbr_cases {g : Edge N → Option (Edge N)} {l : Edge n → Option (Edge n)} (P : Piece g l φ) (hD : Held φ D)
    {k : Fin n} (hk : inn g D (φ k)) (i : Fin 3) :
    (l (k, i) = none ∧ g (φ k, i) = none) ∨ ∃ m j, l (k, i) = some (m, j) ∧ g (φ k, i) = some (φ m, j) ∧ D (φ m) := by
  cases hg : g (φ k, i) with
  | none =>
    left
    refine ⟨?_, rfl⟩
    cases hl : l (k, i) with
    | none => rfl
    | some x => obtain ⟨m, j⟩ := x; rw [P.down k i m j hl] at hg; cases hg
  | some x =>
    right
    obtain ⟨M, j⟩ := x
    have hM := hk.2 i _ hg
    obtain ⟨m, rfl⟩ := hD M hM
    exact ⟨m, j, P.up k i m j hg, rfl, hM⟩

variable (S : SameGeo G H φ) (hD : Held φ D)

include S hD

theorem surr_map {k : Fin n} (hk : inn G.nbr D (φ k)) (i : Fin 3) : φ (surr H (k, i)) = surr G (φ k, i) ∧ D (surr G (φ k, i)) := by
  unfold surr
  rcases S.piece.nbr_cases hD hk i with ⟨h1, h2⟩ | ⟨m, j, h1, h2, h3⟩
  · rw [h1, h2]; exact ⟨rfl, hk.1⟩
  · rw [h1, h2]; exact ⟨rfl, h3⟩

theorem surr_val {α : Type*} {f : Fin n → α} {F : Fin N → α} (hf : On φ D f F) {k : Fin n} (hk : inn G.nbr D (φ k)) (i : Fin 3) :
    f (surr H (k, i)) = F (surr G (φ k, i)) := by
  obtain ⟨h1, h2⟩ := surr_map S hD hk i
  rw [hf _ (by rw [h1]; exact h2), h1]

theorem surr_self {k : Fin n} (hk : inn G.nbr D (φ k)) (i : Fin 3) : surr H (k, i) = k ↔ surr G (φ k, i) = φ k := by
  rw [← (surr_map S hD hk i).1]
  exact ⟨fun h => by rw [h], fun h => S.piece.inj _ _ h⟩

theorem nb_map {k : Fin n} (hk : inn G.nbr D (φ k)) : nb H k = nb G (φ k) := by
  unfold nb
  congr 1
  funext i
  rcases S.piece.nbr_cases hD hk i with ⟨h1, h2⟩ | ⟨m, j, h1, h2, h3⟩ <;> rw [h1, h2] <;> rfl

theorem inner_map {k : Fin n} (hk : inn G.nbr D (φ k)) : inner G (φ k) = (inner H k).map φ := by
  unfold inner
  rw [List.find?_map, List.find?_map, Option.map_map]
  have : ((fun j => decide (j ≠ φ k)) ∘ fun i => surr G (φ k, i)) = ((fun j => decide (j ≠ k)) ∘ fun i => surr H (k, i)) := by
    funext i
    simp only [Function.comp]
    rw [decide_eq_decide]
    exact not_congr (surr_self S hD hk i).symm
  rw [this]
  congr 1
  funext i
  exact (surr_map S hD hk i).1.symm

theorem inner_mem {k j : Fin n} (hk : inn G.nbr D (φ k)) (h : inner H k = some j) : D (φ j) := by
  obtain ⟨_, i, m, hm, rfl⟩ := inner_spec H k j h
  have := S.piece.down k i m.1 m.2 hm
  exact hk.2 i _ this

theorem area2_map {k : Fin n} (hk : inn G.nbr D (φ k)) : area2 H k = area2 G (φ k) := by
  unfold area2
  simp only [S.cx, S.cy, (surr_map S hD hk _).1]

/-- One quantity. -/
theorem extrap_map {q : Fin n → K} {Q : Fin N → K} (beta betaW : K) {k : Fin n} (hk : inn G.nbr D (φ k)) (i : Fin 3)
    (h0 : q k = Q (φ k)) (h1 : nb G (φ k) ≤ 1 → 0 < beta → ∀ i, q (surr H (k, i)) = Q (surr G (φ k, i)))
    (h2 : nb G (φ k) = 2 → ∀ j, inner H k = some j → q j = Q (φ j)) : extrap H q beta betaW k i = extrap G Q beta betaW (φ k) i := by
  unfold extrap
  rw [nb_map S hD hk, area2_map S hD hk]
  split_ifs with a b c
  · exact h0
  · exact h0
  · unfold extrapTypical
    split_ifs with d
    · have hs := h1 b d
      have hj : jumps H q k = jumps G Q (φ k) := by
        funext i
        unfold jumps
        simp only [hs, S.cx, S.cy, S.ex, S.ey, (surr_map S hD hk _).1, area2_map S hD hk]
      simp only [hs, h0, hj]
    · exact h0
  · have h2' : nb G (φ k) = 2 := by have := nb_le G (φ k); omega
    rw [inner_map S hD hk]
    cases hin : inner H k with
    | none => exact h0
    | some j => simp only [Option.map_some, extrapCorner, h0, h2 h2' j hin, S.cx, S.cy, S.ex, S.ey]

theorem extrap_on {q : Fin n → K} {Q : Fin N → K} (hq : On φ D q Q) (beta betaW : K) {k : Fin n} (hk : inn G.nbr D (φ k)) (i : Fin 3) :
    extrap H q beta betaW k i = extrap G Q beta betaW (φ k) i :=
  extrap_map S hD beta betaW hk i (hq k hk.1) (fun _ _ i => surr_val S hD hq hk i) (fun _ j hj => hq j (inner_mem S hD hk hj))

variable {p : Params K} {c : Cent n K} {C : Cent N K}

omit S hD in
/-- Two sets of centroid values agree on `D`. -/
structure OnC (φ : Fin n → Fin N) (D : Fin N → Prop) (c : Cent n K) (C : Cent N K) : Prop where
  stage : On φ D c.stage C.stage
  bed : On φ D c.bed C.bed
  xm : On φ D c.xm C.xm
  ym : On φ D c.ym C.ym

omit S hD in
theorem height_on (hv : p.vel = true) (h : OnC φ D c C) : On φ D (height p c) (height p C) := by
  intro k hk
  simp only [height, hv, if_true, h.stage k hk, h.bed k hk]

theorem isolated_on (hv : p.vel = true) (h : OnC φ D c C) : On φ (inn G.nbr D) (isolated H p c) (isolated G p C) := by
  intro k hk
  unfold isolated
  congr 1
  funext i
  have e := surr_self S hD hk i
  rw [surr_val S hD (height_on hv h) hk i]
  congr 1
  rw [decide_eq_decide]
  exact e

theorem carried_on (hv : p.vel = true) (h : OnC φ D c C) {m : Fin n → K} {M : Fin N → K} (hm : On φ D m M) :
    On φ (inn G.nbr D) (carried H p c m) (carried G p C M) := by
  intro k hk
  unfold carried
  rw [isolated_on S hD hv h k hk, height_on hv h k hk.1, hm k hk.1]

theorem restored_on (hv : p.vel = true) (h : OnC φ D c C) {m : Fin n → K} {M : Fin N → K} (hm : On φ D m M) :
    On φ (inn G.nbr D) (restored H p c m) (restored G p C M) := by
  intro k hk
  unfold restored
  rw [isolated_on S hD hv h k hk, height_on hv h k hk.1, hm k hk.1]

theorem hfactor_on (hv : p.vel = true) (h : OnC φ D c C) : On φ (inn G.nbr D) (hfactor H p c) (hfactor G p C) := by
  intro k hk
  unfold hfactor
  simp only [surr_val S hD (height_on hv h) hk, height_on hv h k hk.1]

omit S hD in
theorem protect_on (minH : K) {area : Fin n → K} {Area : Fin N → K} (h : OnC φ D c C) :
    OnC φ D (protect minH area c).1 (protect minH Area C).1 := by
  have key : ∀ k, D (φ k) → ∀ a A, (protectCell minH (c.stage k) (c.bed k) (c.xm k) (c.ym k) a).stage =
      (protectCell minH (C.stage (φ k)) (C.bed (φ k)) (C.xm (φ k)) (C.ym (φ k)) A).stage ∧
      (protectCell minH (c.stage k) (c.bed k) (c.xm k) (c.ym k) a).xm =
      (protectCell minH (C.stage (φ k)) (C.bed (φ k)) (C.xm (φ k)) (C.ym (φ k)) A).xm ∧
      (protectCell minH (c.stage k) (c.bed k) (c.xm k) (c.ym k) a).ym =
      (protectCell minH (C.stage (φ k)) (C.bed (φ k)) (C.xm (φ k)) (C.ym (φ k)) A).ym := by
    intro k hk a A
    rw [h.stage k hk, h.bed k hk, h.xm k hk, h.ym k hk]
    simp only [protectCell]
    split_ifs <;> exact ⟨rfl, rfl, rfl⟩
  exact ⟨fun k hk => (key k hk _ _).1, h.bed, fun k hk => (key k hk _ _).2.1, fun k hk => (key k hk _ _).2.2⟩

/-- Centroid values after distribution, one layer less. -/
theorem distribute_on (hv : p.vel = true) {area : Fin n → K} {Area : Fin N → K} (h : OnC φ D c C) :
    OnC φ (inn G.nbr D) (distribute H p area c).1 (distribute G p Area C).1 := by
  have h1 := protect_on p.minH (area := area) (Area := Area) h
  exact ⟨fun k hk => h1.stage k hk.1, fun k hk => h1.bed k hk.1, restored_on S hD hv h1 h1.xm, restored_on S hD hv h1 h1.ym⟩

omit S hD in
/-- Two sets of edge values agree on the edges of the triangles in `D`. -/
structure OnE (φ : Fin n → Fin N) (D : Fin N → Prop) (e : Edges n K) (E : Edges N K) : Prop where
  stage : ∀ k i, D (φ k) → e.stage (k, i) = E.stage (φ k, i)
  height : ∀ k i, D (φ k) → e.height (k, i) = E.height (φ k, i)
  bed : ∀ k i, D (φ k) → e.bed (k, i) = E.bed (φ k, i)
  xm : ∀ k i, D (φ k) → e.xm (k, i) = E.xm (φ k, i)
  ym : ∀ k i, D (φ k) → e.ym (k, i) = E.ym (φ k, i)

theorem inn_held : Held φ (inn G.nbr D) := fun T hT => hD T hT.1

theorem edges_sh (hv : p.vel = true) (h : OnC φ D c C) {k : Fin n} (hk : inn G.nbr D (φ k)) (i : Fin 3) :
    (extrapolate H p c).stage (k, i) = (extrapolate G p C).stage (φ k, i) ∧
    (extrapolate H p c).height (k, i) = (extrapolate G p C).height (φ k, i) := by
  have hf := hfactor_on S hD hv h k hk
  constructor
  · show extrap H c.stage (betaTmp p.betaWDry p.betaW (hfactor H p c k)) p.betaW k i = _
    rw [hf]
    exact extrap_on S hD h.stage _ _ hk i
  · show extrap H (height p c) (betaTmp p.betaWDry p.betaW (hfactor H p c k)) p.betaW k i = _
    rw [hf]
    exact extrap_on S hD (height_on hv h) _ _ hk i

/-- Edge values in general: two layers less. -/
theorem edges_on (hv : p.vel = true) (h : OnC φ D c C) :
    OnE φ (inns G.nbr 2 D) (extrapolate H p c) (extrapolate G p C) := by
  have mom : ∀ (b : K) {m : Fin n → K} {M : Fin N → K}, On φ D m M → ∀ k i, inns G.nbr 2 D (φ k) →
      extrap H (carried H p c m) b p.betaW k i = extrap G (carried G p C M) b p.betaW (φ k) i := by
    intro b m M hm k i hk
    exact extrap_on S (inn_held S hD) (carried_on S hD hv h hm) b p.betaW hk i
  refine ⟨fun k i hk => (edges_sh S hD hv h hk.1 i).1, fun k i hk => (edges_sh S hD hv h hk.1 i).2, ?_, ?_, ?_⟩
  · intro k i hk
    obtain ⟨a, b⟩ := edges_sh S hD hv h hk.1 i
    show (extrapolate H p c).stage (k, i) - (extrapolate H p c).height (k, i) = _
    rw [a, b]; rfl
  · intro k i hk
    have hf := hfactor_on S hD hv h k hk.1
    have b := (edges_sh S hD hv h hk.1 i).2
    show (if p.vel then extrap H (carried H p c c.xm) (betaTmp p.betaUhDry p.betaUh (hfactor H p c k)) p.betaW k i *
      (extrapolate H p c).height (k, i) else extrap H (carried H p c c.xm) (betaTmp p.betaUhDry p.betaUh (hfactor H p c k)) p.betaW k i) = _
    rw [hf, b, mom _ h.xm k i hk]; rfl
  · intro k i hk
    have hf := hfactor_on S hD hv h k hk.1
    have b := (edges_sh S hD hv h hk.1 i).2
    show (if p.vel then extrap H (carried H p c c.ym) (betaTmp p.betaVhDry p.betaVh (hfactor H p c k)) p.betaW k i *
      (extrapolate H p c).height (k, i) else extrap H (carried H p c c.ym) (betaTmp p.betaVhDry p.betaVh (hfactor H p c k)) p.betaW k i) = _
    rw [hf, b, mom _ h.ym k i hk]; rfl

omit S hD in
/-- Above the minimum depth all around, the neighbours are not isolated. -/
theorem hfactor_deep (k : Fin N) (h : 0 < hfactor G p C k) :
    p.minH < height p C k ∧ ∀ i, p.minH < height p C (surr G (k, i)) := by
  have h1 : 0 < 12 / 10 * max (min (min (height p C (surr G (k, 0))) (min (height p C (surr G (k, 1))) (height p C (surr G (k, 2)))))
      (height p C k) - p.minH) 0 / (max (min (min (height p C (surr G (k, 0))) (min (height p C (surr G (k, 1)))
      (height p C (surr G (k, 2))))) (height p C k)) 0 + 1 * p.minH) := lt_of_lt_of_le h (min_le_left _ _)
  set hmin := min (min (height p C (surr G (k, 0))) (min (height p C (surr G (k, 1))) (height p C (surr G (k, 2))))) (height p C k)
    with hh
  have hd : p.minH < hmin := by
    by_contra hn
    rw [max_eq_right (by linarith : hmin - p.minH ≤ 0)] at h1
    simp at h1
  refine ⟨lt_of_lt_of_le hd (min_le_right _ _), ?_⟩
  have a0 : hmin ≤ height p C (surr G (k, 0)) := (min_le_left _ _).trans (min_le_left _ _)
  have a1 : hmin ≤ height p C (surr G (k, 1)) := (min_le_left _ _).trans ((min_le_right _ _).trans (min_le_left _ _))
  have a2 : hmin ≤ height p C (surr G (k, 2)) := (min_le_left _ _).trans ((min_le_right _ _).trans (min_le_right _ _))
  intro i
  have : ∀ j : Fin 3, j = 0 ∨ j = 1 ∨ j = 2 := by decide
  rcases this i with rfl | rfl | rfl
  · exact lt_of_lt_of_le hd a0
  · exact lt_of_lt_of_le hd a1
  · exact lt_of_lt_of_le hd a2

omit S hD in
theorem not_isolated_near (hS : Verif.Flux.Symmetric G.nbr) (hN : NoSelf G.nbr) (k : Fin N) (hk : p.minH < height p C k)
    (hs : ∀ i, p.minH < height p C (surr G (k, i))) (j : Fin N) (hj : j = k ∨ ∃ i, surr G (k, i) = j) (hc : nb G k ≤ 2) :
    isolated G p C j = false := by
  rw [← Bool.not_eq_true]
  intro hiso
  unfold isolated at hiso
  rw [List.all_eq_true] at hiso
  -- some neighbour of `j`, other than `j`, is deep
  have key : ∀ a i M, G.nbr (a, i) = some M → p.minH < height p C M.1 → isolated G p C a = true → False := by
    intro a i M hM hd hi
    unfold isolated at hi
    rw [List.all_eq_true] at hi
    have := hi i (List.mem_finRange i)
    have e : surr G (a, i) = M.1 := by unfold surr; rw [hM]
    rw [e, Bool.or_eq_true, decide_eq_true_eq, decide_eq_true_eq] at this
    rcases this with h | h
    · exact absurd h (not_lt.mpr hd.le)
    · exact hN (a, i) M hM h
  have hi : isolated G p C j = true := by unfold isolated; rw [List.all_eq_true]; exact hiso
  -- an interior edge of `k`
  have hex : ∃ i M, G.nbr (k, i) = some M := by
    by_contra hno
    push Not at hno
    have : nb G k = 3 := by
      unfold nb
      have : (fun i => (G.nbr (k, i)).isNone) = fun _ => true := by
        funext i
        cases hg : G.nbr (k, i) with
        | none => rfl
        | some M => exact absurd hg (hno i M)
      rw [this]; rfl
    omega
  have own : isolated G p C k = true → False := by
    intro h
    obtain ⟨i, M, hM⟩ := hex
    have := hs i
    rw [show surr G (k, i) = M.1 by unfold surr; rw [hM]] at this
    exact key k i M hM this h
  rcases hj with rfl | ⟨i, hj⟩
  · exact own hi
  · cases hg : G.nbr (k, i) with
    | none =>
      rw [show surr G (k, i) = k by unfold surr; rw [hg]] at hj
      subst hj
      exact own hi
    | some M =>
      rw [show surr G (k, i) = M.1 by unfold surr; rw [hg]] at hj
      subst hj
      obtain ⟨hb, _⟩ := hS (k, i) M hg
      exact key M.1 M.2 (k, i) hb hk hi

omit hD in
theorem sym_local (hS : Verif.Flux.Symmetric G.nbr) : Verif.Flux.Symmetric H.nbr := by
  rintro ⟨k, i⟩ ⟨m, j⟩ h
  obtain ⟨h1, h2⟩ := hS _ _ (S.piece.down k i m j h)
  refine ⟨S.piece.up m j k i h1, ?_⟩
  intro he
  apply h2
  rw [Prod.mk.injEq] at he ⊢
  exact ⟨by rw [he.1], he.2⟩

omit hD in
theorem noSelf_local (hN : NoSelf G.nbr) : NoSelf H.nbr := by
  rintro ⟨k, i⟩ ⟨m, j⟩ h he
  simp only at he
  subst he
  exact hN _ _ (S.piece.down m i m j h) rfl

/-- Edge values when dry cells are not extrapolated and no triangle has two boundary edges: one layer less. -/
theorem edges_on_dry (hv : p.vel = true) (hm : 0 < p.minH) (hS : Verif.Flux.Symmetric G.nbr) (hN : NoSelf G.nbr)
    (hu : p.betaUhDry ≤ 0) (hw : p.betaVhDry ≤ 0) (hc : ∀ k, nb G k ≠ 2) (h : OnC φ D c C) :
    OnE φ (inn G.nbr D) (extrapolate H p c) (extrapolate G p C) := by
  have hS' := sym_local S hS
  have hN' := noSelf_local S hN
  have deep : ∀ (dry wet : K), dry ≤ 0 → ∀ T, 0 < betaTmp dry wet (hfactor G p C T) → 0 < hfactor G p C T := by
    intro dry wet hd T hb
    rcases (hfactor_range G p C T hm).1.lt_or_eq with h | h
    · exact h
    · rw [← h] at hb
      unfold betaTmp at hb
      linarith
  have mom : ∀ (dry wet : K), dry ≤ 0 → ∀ {m : Fin n → K} {M : Fin N → K}, On φ D m M → ∀ k i, inn G.nbr D (φ k) →
      extrap H (carried H p c m) (betaTmp dry wet (hfactor G p C (φ k))) p.betaW k i =
        extrap G (carried G p C M) (betaTmp dry wet (hfactor G p C (φ k))) p.betaW (φ k) i := by
    intro dry wet hd m M hmM k i hk
    refine extrap_map S hD _ p.betaW hk i (carried_on S hD hv h hmM k hk) ?_ (fun h2 => absurd h2 (hc _))
    intro hnb hb i
    have hf := deep dry wet hd _ hb
    obtain ⟨g1, g2⟩ := hfactor_deep (φ k) hf
    have hf' : 0 < hfactor H p c k := by rw [hfactor_on S hD hv h k hk]; exact hf
    obtain ⟨l1, l2⟩ := hfactor_deep k hf'
    have i1 := not_isolated_near hS hN (φ k) g1 g2 _ (Or.inr ⟨i, rfl⟩) (by omega)
    have i2 := not_isolated_near hS' hN' k l1 l2 _ (Or.inr ⟨i, rfl⟩) (by rw [nb_map S hD hk]; omega)
    simp only [carried, i1, i2, hv, if_true, Bool.false_eq_true, if_false]
    rw [surr_val S hD (height_on hv h) hk i, surr_val S hD hmM hk i]
  refine ⟨fun k i hk => (edges_sh S hD hv h hk i).1, fun k i hk => (edges_sh S hD hv h hk i).2, ?_, ?_, ?_⟩
  · intro k i hk
    obtain ⟨a, b⟩ := edges_sh S hD hv h hk i
    show (extrapolate H p c).stage (k, i) - (extrapolate H p c).height (k, i) = _
    rw [a, b]; rfl
  · intro k i hk
    have hf := hfactor_on S hD hv h k hk
    have b := (edges_sh S hD hv h hk i).2
    show (if p.vel then extrap H (carried H p c c.xm) (betaTmp p.betaUhDry p.betaUh (hfactor H p c k)) p.betaW k i *
      (extrapolate H p c).height (k, i) else extrap H (carried H p c c.xm) (betaTmp p.betaUhDry p.betaUh (hfactor H p c k)) p.betaW k i) = _
    rw [hf, b, mom _ _ hu h.xm k i hk]; rfl
  · intro k i hk
    have hf := hfactor_on S hD hv h k hk
    have b := (edges_sh S hD hv h hk i).2
    show (if p.vel then extrap H (carried H p c c.ym) (betaTmp p.betaVhDry p.betaVh (hfactor H p c k)) p.betaW k i *
      (extrapolate H p c).height (k, i) else extrap H (carried H p c c.ym) (betaTmp p.betaVhDry p.betaVh (hfactor H p c k)) p.betaW k i) = _
    rw [hf, b, mom _ _ hw h.ym k i hk]; rfl

end Verif.ParRun
