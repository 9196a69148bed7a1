import Verif.Erode.Props

/-!
# C94: sand dunes, and where the plain erosion operator fails
-/

set_option linter.unusedSectionVars false

namespace Verif.Erode

open Verif.SetQ Verif.NodeAvg

variable {K : Type*} [Field K] [LinearOrder K] [IsStrictOrderedRing K]

/-! ### Dunes -/

theorem argmin3_le (a : Fin 3 → K) (i : Fin 3) : a (argmin3 a) ≤ a i := by
  unfold argmin3
  split_ifs with h1 h2
  · match i with
    | 0 => exact le_rfl
    | 1 => exact h1.1
    | 2 => exact h1.2
  · have h0 : a 1 ≤ a 0 := by
      by_contra h
      exact h1 ⟨(not_le.1 h).le, (not_le.1 h).le.trans h2⟩
    match i with
    | 0 => exact h0
    | 1 => exact le_rfl
    | 2 => exact h2
  · have h2' : a 2 ≤ a 1 := (not_le.1 h2).le
    have h0 : a 2 ≤ a 0 := by
      by_contra h
      have h := (not_le.1 h).le
      exact h1 ⟨h.trans h2', h⟩
    match i with
    | 0 => exact h0
    | 1 => exact h2'
    | 2 => exact le_rfl

/-- The shear stress on the sand. -/
def stress (p : Dune K) (s : State K) (k : ℕ) : K :=
  1000 * p.g * (9 / 10000) * (s.xmom k ^ 2 + s.ymom k ^ 2) / (p.pow (depth s k) + 1 / 10 ^ 6)

/-- `e` is the scour in a step of length `dt`: it grows with the stress above the critical one, 2.1 Pa. -/
def IsDuneScour (p : Dune K) (dt : K) (s : State K) (k : ℕ) (e : K) : Prop :=
  (21 / 10 ≤ stress p s k ∧ e * 72000 = dt * (stress p s k - 21 / 10)) ∨ (stress p s k ≤ 21 / 10 ∧ e = 0)

theorem duneScour_spec (p : Dune K) (dt : K) (hdt : 0 ≤ dt) (s : State K) (k : ℕ) : IsDuneScour p dt s k (duneScour p dt s k) := by
  have hst : 1000 * p.g * (3 / 100) ^ 2 * (s.xmom k ^ 2 + s.ymom k ^ 2) / (p.pow (s.stage k - s.elev k) + 1 / 10 ^ 6) = stress p s k := by
    unfold stress depth
    congr 1
    ring
  unfold duneScour IsDuneScour
  simp only [hst]
  have hc : (25 / 1000 / 1800 : K) = 1 / 72000 := by norm_num
  rw [hc]
  split_ifs with h
  · left
    constructor
    · by_contra hcon
      have h1 : stress p s k - 21 / 10 ≤ 0 := by linarith
      have : 1 / 72000 * dt * (stress p s k - 21 / 10) ≤ 0 := mul_nonpos_of_nonneg_of_nonpos (by positivity) h1
      linarith
    · ring
  · rcases le_total (21 / 10) (stress p s k) with h1 | h1
    · left
      refine ⟨h1, ?_⟩
      have h2 : 0 ≤ 1 / 72000 * dt * (stress p s k - 21 / 10) := mul_nonneg (by positivity) (by linarith)
      have h3 : 1 / 72000 * dt * (stress p s k - 21 / 10) = 0 := le_antisymm (not_lt.1 h) h2
      linear_combination (-72000) * h3
    · exact Or.inr ⟨h1, rfl⟩

/-- C94: the sand dune operator on the triangles of its region, with base levels `base`. First `z` is the bed after scour, not below the base.
Then each triangle whose slope to its lowest neighbour exceeds the angle of repose collapses to that angle, measured from the level of
that neighbour after scour, but not below the base; the others keep `z`. Other triangles stay. -/
theorem C94_dune (sq : K → K) (d : Dom K) (p : Dune K) (base : ℕ → K) (hb : p.base = some base) (ids : List ℕ) (dt : K) (hdt : 0 ≤ dt)
    (s : State K) :
    ∃ (s' : State K) (z : ℕ → K), dune sq d p ids dt s = some s' ∧ (∀ k ∈ ids, ∃ e, IsDuneScour p dt s k e ∧ Sinks (base k) (s.elev k) e (z k)) ∧
      (∀ k, k ∉ ids → z k = s.elev k) ∧
      (∀ k ∈ ids, ∃ i, (∀ j, z (p.neighbour k i) ≤ z (p.neighbour k j)) ∧
        let low := p.neighbour k i
        let far := sq ((d.cx k - d.cx low) ^ 2 + (d.cy k - d.cy low) ^ 2)
        (0 < far → z k ≤ z low + p.repose * far → s'.elev k = z k) ∧ (far ≤ 0 → 0 ≤ p.repose → s'.elev k = z k) ∧
        (0 < far → z low + p.repose * far < z k → s'.elev k = max (z low + p.repose * far) (base k))) ∧
      OnlyChanges (· ∈ ids) s s' := by
  refine ⟨_, put s.elev ids (ids.map fun k => max (s.elev k - duneScour p dt s k) (base k)), by unfold dune; rw [hb], ?_, ?_, ?_, ?_⟩
  · intro k hk
    refine ⟨duneScour p dt s k, duneScour_spec p dt hdt s k, ?_⟩
    rw [put_map, if_pos hk]
    exact sinks_max _ _ _
  · intro k hk
    exact put_not_mem _ _ _ _ hk
  · intro k hk
    generalize put s.elev ids (ids.map fun k => max (s.elev k - duneScour p dt s k) (base k)) = z
    refine ⟨argmin3 fun i => z (p.neighbour k i), fun j => argmin3_le (fun i => z (p.neighbour k i)) j, ?_⟩
    simp only
    rw [put_map, if_pos hk]
    unfold collapse
    simp only
    generalize p.neighbour k (argmin3 fun i => z (p.neighbour k i)) = low
    generalize sq ((d.cx k - d.cx low) ^ 2 + (d.cy k - d.cy low) ^ 2) = far
    refine ⟨fun h1 h2 => ?_, fun h1 h2 => ?_, fun h1 h2 => ?_⟩
    · rw [if_pos h1, if_neg]
      rw [not_lt, div_le_iff₀ h1]
      linarith
    · rw [if_neg (not_lt.2 h1), if_neg (not_lt.2 h2)]
    · rw [if_pos h1, if_pos]
      rw [gt_iff_lt, lt_div_iff₀ h1]
      linarith
  · intro k hk
    refine ⟨?_, put_not_mem _ _ _ _ hk⟩
    simp only
    rw [put_not_mem _ _ _ _ hk, put_not_mem _ _ _ _ hk]

/-- C94: so after a step the bed is nowhere in the region below its base level, nor above both its base and its old level; and a triangle
with a neighbour at positive distance stands at most at the angle of repose above the scoured level of its lowest neighbour, unless the base
keeps it up. -/
theorem C94_dune_bounds (sq : K → K) (d : Dom K) (p : Dune K) (base : ℕ → K) (hb : p.base = some base) (hr : 0 ≤ p.repose) (ids : List ℕ)
    (dt : K) (hdt : 0 ≤ dt) (s s' : State K) (h : dune sq d p ids dt s = some s') (k : ℕ) (hk : k ∈ ids) :
    base k ≤ s'.elev k ∧ s'.elev k ≤ max (s.elev k) (base k) := by
  obtain ⟨s1, z, h1, hz, _, hcol, _⟩ := C94_dune sq d p base hb ids dt hdt s
  rw [h] at h1
  cases h1
  obtain ⟨e, he, hs1, hs2, hs3⟩ := hz k hk
  have he0 : 0 ≤ e := by
    rcases he with ⟨h1, h2⟩ | ⟨_, h2⟩
    · have : 0 ≤ e * 72000 := by rw [h2]; exact mul_nonneg hdt (by linarith)
      linarith
    · exact h2.ge
  have hzm : z k ≤ max (s.elev k) (base k) := by
    rcases hs3 with h | h
    · rw [h]; exact (by linarith : s.elev k - e ≤ s.elev k).trans (le_max_left _ _)
    · rw [h]; exact le_max_right _ _
  obtain ⟨i, _, c1, c2, c3⟩ := hcol k hk
  rcases le_or_gt (sq ((d.cx k - d.cx (p.neighbour k i)) ^ 2 + (d.cy k - d.cy (p.neighbour k i)) ^ 2)) 0 with hf | hf
  · rw [c2 hf hr]; exact ⟨hs1, hzm⟩
  · rcases le_or_gt (z k) (z (p.neighbour k i) +
        p.repose * sq ((d.cx k - d.cx (p.neighbour k i)) ^ 2 + (d.cy k - d.cy (p.neighbour k i)) ^ 2)) with hl | hl
    · rw [c1 hf hl]; exact ⟨hs1, hzm⟩
    · rw [c3 hf hl]
      exact ⟨le_max_right _ _, max_le (hl.le.trans hzm) (le_max_right _ _)⟩

/-- C94: still water does not scour. -/
theorem C94_dune_still (p : Dune K) (dt : K) (s : State K) (k : ℕ) (e : K) (hx : s.xmom k = 0) (hy : s.ymom k = 0)
    (h : IsDuneScour p dt s k e) : e = 0 := by
  have hst : stress p s k = 0 := by unfold stress; rw [hx, hy]; simp
  rcases h with ⟨h1, _⟩ | ⟨_, h⟩
  · rw [hst] at h1; norm_num at h1
  · exact h

/-- C94, disagreement: with a number as base, also the default, every call of the sand dune operator fails. -/
theorem C94_dune_number_base (sq : K → K) (d : Dom K) (p : Dune K) (hb : p.base = none) (ids : List ℕ) (dt : K) (s : State K) :
    dune sq d p ids dt s = none := by
  unfold dune
  rw [hb]

/-! ### The plain operator -/

/-- C94, disagreement: the plain erosion operator fails in its first step, with either representation of the bed, unless its region has
exactly one or exactly three triangles. -/
theorem C94_plain_fails (sq : K → K) (d : Dom K) (l : Limits K) (ids nodeIds vols : List ℕ) (dt : K) (s : State K) :
    erosion sq d l ids nodeIds vols dt s = none ↔ ids.length ≠ 1 ∧ ids.length ≠ 3 := by
  unfold erosion
  match ids with
  | [] => split <;> simp [minusVector, spreadVector]
  | [a] => split <;> simp [rowsOf, minusVector, spreadVector]
  | [a, b] => split <;> simp [minusVector, spreadVector]
  | [a, b, c] => split <;> simp [rowsOf, minusVector, spreadVector]
  | a :: b :: c :: e :: l => split <;> simp [minusVector, spreadVector]

/-- C94, disagreement: for a region of one triangle (discontinuous bed) the operator puts the bed at the highest corner, less the scour: a
sloping bed under still water is raised. -/
theorem C94_plain_one (sq : K → K) (d : Dom K) (hd : d.discontinuous = true) (l : Limits K) (k : ℕ) (nodeIds vols : List ℕ) (dt : K)
    (s : State K) :
    ∃ s', erosion sq d l [k] nodeIds vols dt s = some s' ∧ l.base ≤ s'.elev k ∧
      (∀ e, e < 3 → s.ev (3 * k + e) - scour sq l dt s k ≤ s'.elev k) := by
  unfold erosion
  rw [if_pos hd]
  simp only [rowsOf, List.map_cons, List.map_nil, minusVector]
  refine ⟨_, rfl, ?_⟩
  have hel : ∀ x : K, (liftWater s [k] [x]).elev k = x := fun x => by simp [liftWater, put]
  rw [hel]
  unfold rowTop
  simp only
  refine ⟨(le_max_right _ _).trans (le_max_right _ _), fun e he => ?_⟩
  match e, he with
  | 0, _ => exact (le_max_left _ _).trans ((le_max_left _ _).trans (le_max_left _ _))
  | 1, _ => exact (le_max_left _ _).trans ((le_max_right _ _).trans (le_max_left _ _))
  | 2, _ => exact (le_max_left _ _).trans (le_max_right _ _)

/-- C94, disagreement: for a region of three triangles (discontinuous bed) the corners of one triangle are lowered by the scours of different
triangles: the first corner by that of the first triangle, the second by that of the second, the third by that of the third. -/
theorem C94_plain_three (sq : K → K) (d : Dom K) (hd : d.discontinuous = true) (l : Limits K) (t : Fin 3 → ℕ) (ht : Function.Injective t)
    (nodeIds vols : List ℕ) (dt : K) (s : State K) :
    ∃ s', erosion sq d l [t 0, t 1, t 2] nodeIds vols dt s = some s' ∧ ∀ i,
      ((∃ j : Fin 3, s'.elev (t i) = s.ev (3 * t i + j) - scour sq l dt s (t j)) ∨ s'.elev (t i) = l.base) ∧
      l.base ≤ s'.elev (t i) ∧ ∀ j : Fin 3, s.ev (3 * t i + j) - scour sq l dt s (t j) ≤ s'.elev (t i) := by
  unfold erosion
  rw [if_pos hd]
  simp only [rowsOf, List.map_cons, List.map_nil, minusVector]
  refine ⟨_, rfl, ?_⟩
  have h01 : t 0 ≠ t 1 := fun h => by have := ht h; simp at this
  have h02 : t 0 ≠ t 2 := fun h => by have := ht h; simp at this
  have h12 : t 1 ≠ t 2 := fun h => by have := ht h; simp at this
  have key : ∀ (a b c base : K), let m := rowTop base (a, b, c)
      (m = a ∨ m = b ∨ m = c ∨ m = base) ∧ base ≤ m ∧ a ≤ m ∧ b ≤ m ∧ c ≤ m := by
    intro a b c base m
    refine ⟨?_, (le_max_right _ _).trans (le_max_right _ _), (le_max_left _ _).trans ((le_max_left _ _).trans (le_max_left _ _)),
      (le_max_left _ _).trans ((le_max_right _ _).trans (le_max_left _ _)), (le_max_left _ _).trans (le_max_right _ _)⟩
    simp only [m, rowTop]
    rcases max_choice (max (max a base) (max b base)) (max c base) with h | h <;> rw [h]
    · rcases max_choice (max a base) (max b base) with h | h <;> rw [h]
      · rcases max_choice a base with h | h <;> rw [h] <;> simp
      · rcases max_choice b base with h | h <;> rw [h] <;> simp
    · rcases max_choice c base with h | h <;> rw [h] <;> simp
  have fin : ∀ (i : Fin 3) (z : K), z = rowTop l.base (s.ev (3 * t i) - scour sq l dt s (t 0), s.ev (3 * t i + 1) - scour sq l dt s (t 1),
      s.ev (3 * t i + 2) - scour sq l dt s (t 2)) →
      ((∃ j : Fin 3, z = s.ev (3 * t i + j) - scour sq l dt s (t j)) ∨ z = l.base) ∧ l.base ≤ z ∧
        ∀ j : Fin 3, s.ev (3 * t i + j) - scour sq l dt s (t j) ≤ z := by
    rintro i z rfl
    obtain ⟨h1, h2, h3, h4, h5⟩ := key (s.ev (3 * t i) - scour sq l dt s (t 0)) (s.ev (3 * t i + 1) - scour sq l dt s (t 1))
      (s.ev (3 * t i + 2) - scour sq l dt s (t 2)) l.base
    refine ⟨?_, h2, fun j => ?_⟩
    · rcases h1 with h | h | h | h
      · exact Or.inl ⟨0, h⟩
      · exact Or.inl ⟨1, h⟩
      · exact Or.inl ⟨2, h⟩
      · exact Or.inr h
    · match j with
      | 0 => exact h3
      | 1 => exact h4
      | 2 => exact h5
  intro i
  apply fin i
  match i with
  | 0 => simp [liftWater, put, h01, h02]
  | 1 => simp [liftWater, put, h12]
  | 2 => simp [liftWater, put]

/-- C94, disagreement: an operator made without region, documented to act on all triangles, cannot be made for a continuous bed and never
changes anything for a discontinuous one. -/
theorem C94_whole_domain (d : Dom K) (s : State K) :
    (d.discontinuous = false → withoutRegion d s = none) ∧ (d.discontinuous = true → withoutRegion d s = some s) := by
  unfold withoutRegion
  refine ⟨fun h => if_neg (by rw [h]; simp), fun h => ?_⟩
  rw [if_pos h]
  simp

end Verif.Erode
