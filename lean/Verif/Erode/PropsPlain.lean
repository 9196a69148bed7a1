import Verif.Erode.PropsDune
import Verif.Erode.PropsFric

/-!
# C94, C95: the exact level that the plain erosion operator gives, and how fractions of a friction are cut off
-/

set_option linter.unusedSectionVars false

namespace Verif.Erode

open Verif.SetQ Verif.NodeAvg

variable {K : Type*} [Field K] [LinearOrder K] [IsStrictOrderedRing K]

/-- `e` is the scour in a step of length `dt`: the momentum per width times `dt` where it exceeds the threshold, otherwise none. -/
def PlainScour (l : Limits K) (dt : K) (s : State K) (k : ℕ) (e : K) : Prop :=
  ∃ m, 0 ≤ m ∧ m ^ 2 = s.xmom k ^ 2 + s.ymom k ^ 2 ∧ (l.threshold < m → e = m * dt) ∧ (m ≤ l.threshold → e = 0)

/-- `z` is the highest of the corners of triangle `k` less `e`, but not below the base. -/
def Top (base : K) (s : State K) (k : ℕ) (e z : K) : Prop :=
  base ≤ z ∧ (∀ i, i < 3 → s.ev (3 * k + i) - e ≤ z) ∧ ((∃ i, i < 3 ∧ z = s.ev (3 * k + i) - e) ∨ z = base)

theorem scour_plain {sq : K → K} (hsq : ∀ x, 0 ≤ x → 0 ≤ sq x ∧ sq x ^ 2 = x) (l : Limits K) (dt : K) (s : State K) (k : ℕ) {e : K}
    (he : PlainScour l dt s k e) : scour sq l dt s k = e := by
  obtain ⟨m, h0, h1, h2, h3⟩ := he
  obtain ⟨h4, h5⟩ := hsq (s.xmom k ^ 2 + s.ymom k ^ 2) (by positivity)
  have hm : sq (s.xmom k ^ 2 + s.ymom k ^ 2) = m := (pow_left_inj₀ h4 h0 two_ne_zero).mp (h5.trans h1.symm)
  unfold scour
  simp only [hm]
  by_cases h : m > l.threshold
  · rw [if_pos h, h2 h]
  · rw [if_neg h, h3 (not_lt.1 h), zero_mul]

theorem rowTop_top (base : K) (s : State K) (k : ℕ) (e : K) :
    Top base s k e (rowTop base (s.ev (3 * k) - e, s.ev (3 * k + 1) - e, s.ev (3 * k + 2) - e)) := by
  unfold rowTop
  refine ⟨(le_max_right _ _).trans (le_max_right _ _), fun i hi => ?_, ?_⟩
  · match i, hi with
    | 0, _ => exact (le_max_left _ _).trans ((le_max_left _ _).trans (le_max_left _ _))
    | 1, _ => exact (le_max_left _ _).trans ((le_max_right _ _).trans (le_max_left _ _))
    | 2, _ => exact (le_max_left _ _).trans (le_max_right _ _)
  · simp only
    rcases max_choice (max (max (s.ev (3 * k) - e) base) (max (s.ev (3 * k + 1) - e) base)) (max (s.ev (3 * k + 2) - e) base) with h | h <;> rw [h]
    · rcases max_choice (max (s.ev (3 * k) - e) base) (max (s.ev (3 * k + 1) - e) base) with h | h <;> rw [h]
      · rcases max_choice (s.ev (3 * k) - e) base with h | h <;> rw [h]
        · exact Or.inl ⟨0, by omega, rfl⟩
        · exact Or.inr rfl
      · rcases max_choice (s.ev (3 * k + 1) - e) base with h | h <;> rw [h]
        · exact Or.inl ⟨1, by omega, rfl⟩
        · exact Or.inr rfl
    · rcases max_choice (s.ev (3 * k + 2) - e) base with h | h <;> rw [h]
      · exact Or.inl ⟨2, by omega, rfl⟩
      · exact Or.inr rfl

/-- C94: for a region of one triangle the plain operator puts a discontinuous bed at the highest corner less the scour, not below the base; the
scour is the length of the momentum times the step where that exceeds the threshold, and nothing otherwise. -/
theorem C94_plain_level {sq : K → K} (hsq : ∀ x, 0 ≤ x → 0 ≤ sq x ∧ sq x ^ 2 = x) (d : Dom K) (hd : d.discontinuous = true) (l : Limits K) (k : ℕ)
    (nodeIds vols : List ℕ) (dt : K) (s : State K) (e : K) (he : PlainScour l dt s k e) :
    ∃ s', erosion sq d l [k] nodeIds vols dt s = some s' ∧ Top l.base s k e (s'.elev k) := by
  unfold erosion
  rw [if_pos hd]
  simp only [rowsOf, List.map_cons, List.map_nil, minusVector, scour_plain hsq l dt s k he]
  refine ⟨_, rfl, ?_⟩
  have hel : ∀ x : K, (liftWater s [k] [x]).elev k = x := fun x => by simp [liftWater, put]
  rw [hel]
  exact rowTop_top l.base s k e

/-- C94: with a continuous bed all three corners of the triangle get that level, then the nodes are levelled, and all triangles that touch the
region follow. -/
theorem C94_plain_continuous {sq : K → K} (hsq : ∀ x, 0 ≤ x → 0 ≤ sq x ∧ sq x ^ 2 = x) (d : Dom K) (hd : d.discontinuous = false)
    (ha : IsArgsort d.flat d.vvi) (l : Limits K) (k : ℕ) (nodeIds vols : List ℕ) (hn : IsNodeIds d [k] nodeIds) (hv : IsVols d nodeIds vols)
    (dt : K) (s : State K) (e : K) (he : PlainScour l dt s k e) :
    ∃ s' z, erosion sq d l [k] nodeIds vols dt s = some s' ∧ Top l.base s k e z ∧ Levelled d [k] (fun _ => z) s s' := by
  unfold erosion
  rw [if_neg (by rw [hd]; simp)]
  simp only [List.map_cons, List.map_nil, spreadVector, scour_plain hsq l dt s k he]
  refine ⟨_, _, rfl, rowTop_top l.base s k e, cleanUp_levelled d ha [k] nodeIds vols hn hv _ s _ fun c => ?_⟩
  have hmap : ∀ z : K, (List.replicate [k].length [z, z, z]).flatten = (corners [k]).map fun _ => z := fun z => by
    simp [corners]
  rw [hmap, put_map]
  simp only [mem_corners]

/-- C95: with a whole number for the first triangle, every other value of the function loses its fraction, towards zero for either sign. -/
theorem C95_cut_off [FloorRing K] (d : Dom K) (f : K → Num K) (k₀ : ℕ) (ids : List ℕ) (z : ℤ) (s : State K) (friction : ℕ → K)
    (h0 : f (depth s k₀) = .int z) :
    ∃ q, depthFriction d (.call f) (some (k₀ :: ids)) s friction = some q ∧
      ∀ k ∈ ids, ∀ x, f (depth s k) = .float x → ∃ y : ℤ, q k = y ∧ |(y : K)| ≤ |x| ∧ |x - y| < 1 ∧ 0 ≤ (y : K) * x := by
  refine ⟨put friction (k₀ :: ids) ((k₀ :: ids).map fun k => (f (depth s k₀)).as (f (depth s k))), ?_, fun k hk x hx => ?_⟩
  · unfold depthFriction Friction.fn cells
    simp only [Option.getD_some, List.map_cons, vectorize, List.map_map]
    rfl
  · refine ⟨truncate x, ?_, ?_⟩
    · rw [put_map, if_pos (List.mem_cons_of_mem _ hk), h0, hx]
      rfl
    · unfold truncate
      by_cases h : 0 ≤ x
      · rw [if_pos h]
        have h1 := Int.floor_le x
        have h2 := Int.lt_floor_add_one x
        have h3 : (0 : K) ≤ (⌊x⌋ : K) := by exact_mod_cast Int.floor_nonneg.2 h
        refine ⟨?_, ?_, mul_nonneg h3 h⟩
        · rwa [abs_of_nonneg h3, abs_of_nonneg h]
        · rw [abs_of_nonneg (by linarith)]; linarith
      · rw [if_neg h]
        have hx0 : x < 0 := not_le.1 h
        have h1 := Int.le_ceil x
        have h2 := Int.ceil_lt_add_one x
        have h3 : (⌈x⌉ : K) ≤ 0 := by exact_mod_cast Int.ceil_le.2 (by simpa using hx0.le)
        refine ⟨?_, ?_, mul_nonneg_of_nonpos_of_nonpos h3 hx0.le⟩
        · rw [abs_of_nonpos h3, abs_of_neg hx0]; linarith
        · rw [abs_of_nonpos (by linarith)]; linarith

/-- Momentum (3, 4) in triangle 0: a scour of 5 times the step above the threshold 1, and none at the threshold 5. -/
example (s : State ℚ) (h : s.xmom 0 = 3) (h' : s.ymom 0 = 4) :
    PlainScour ⟨1, 0⟩ 2 s 0 10 ∧ PlainScour ⟨5, 0⟩ 2 s 0 0 := by
  refine ⟨⟨5, by norm_num, by rw [h, h']; norm_num, fun _ => by norm_num, fun h => absurd h (by norm_num)⟩,
    ⟨5, by norm_num, by rw [h, h']; norm_num, fun h => absurd h (by norm_num), fun _ => rfl⟩⟩

/-- The hypothesis on the root is met by that of the reals. -/
example : ∀ x : ℝ, 0 ≤ x → 0 ≤ Real.sqrt x ∧ Real.sqrt x ^ 2 = x := fun _ h => ⟨Real.sqrt_nonneg _, Real.sq_sqrt h⟩

end Verif.Erode
