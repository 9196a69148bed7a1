import Verif.Erode.Spec
import Mathlib.Tactic.Positivity

/-!
# C95: friction operators, and setting stage and momentum
-/

set_option linter.unusedSectionVars false

namespace Verif.Erode

open Verif.SetQ

/-! ### Manning's friction -/

/-- The momentum of `f'` is that of `f` times `a`, everything else is the same. -/
def Scaled (a : ℝ) (f f' : Flow) : Prop := f'.stage = f.stage ∧ f'.elev = f.elev ∧ f'.xmom = a * f.xmom ∧ f'.ymom = a * f.ymom

theorem Flow.speed_nonneg (f : Flow) : 0 ≤ f.speed := Real.sqrt_nonneg _

theorem scaled_speed {a : ℝ} (ha : 0 ≤ a) {f f' : Flow} (h : Scaled a f f') : f'.speed = a * f.speed := by
  unfold Flow.speed
  rw [h.2.2.1, h.2.2.2]
  have : (a * f.xmom) ^ 2 + (a * f.ymom) ^ 2 = a ^ 2 * (f.xmom ^ 2 + f.ymom ^ 2) := by ring
  rw [this, Real.sqrt_mul (sq_nonneg a), Real.sqrt_sq ha]

theorem gamma_nonpos (g n : ℝ) (hg : 0 ≤ g) (f : Flow) : gamma g n f ≤ 0 := by
  unfold gamma
  simp only
  split_ifs with h
  · have h1 := f.speed_nonneg
    have h2 : 0 ≤ (f.stage - f.elev) ^ (7 / 3 : ℝ) := Real.rpow_nonneg h.le _
    have : -g * n ^ 2 * f.speed / (f.stage - f.elev) ^ (7 / 3 : ℝ) = -(g * n ^ 2 * f.speed / (f.stage - f.elev) ^ (7 / 3 : ℝ)) := by ring
    rw [this, neg_nonpos]
    positivity
  · norm_num

/-- C95: the operator scales the momentum by a factor in `(0, 1]`: it never reverses or speeds up the flow and keeps its direction; the factor
is `exp` of minus time times the rate of Manning's formula where there is water, and `exp(-100 dt)` where there is none. The stage stays. -/
theorem C95_manning (g n dt : ℝ) (hg : 0 ≤ g) (hdt : 0 ≤ dt) (f : Flow) :
    ∃ a, Scaled a f (manning g n dt f) ∧ 0 < a ∧ a ≤ 1 ∧
      (∀ h, f.stage = f.elev + h → 0 < h → ∀ r, r * h ^ (7 / 3 : ℝ) = g * n ^ 2 * f.speed → a = Real.exp (-(r * dt))) ∧
      (f.stage ≤ f.elev → a = Real.exp (-100 * dt)) := by
  refine ⟨Real.exp (gamma g n f * dt), ⟨rfl, rfl, rfl, rfl⟩, Real.exp_pos _, ?_, ?_, ?_⟩
  · rw [Real.exp_le_one_iff]
    exact mul_nonpos_of_nonpos_of_nonneg (gamma_nonpos g n hg f) hdt
  · intro h hs hh r hr
    have hd : f.stage - f.elev = h := by rw [hs]; ring
    have hp : h ^ (7 / 3 : ℝ) ≠ 0 := (Real.rpow_pos_of_pos hh _).ne'
    unfold gamma
    simp only [hd]
    rw [if_pos hh]
    congr 1
    have : -g * n ^ 2 * f.speed / h ^ (7 / 3 : ℝ) = -r := by
      rw [div_eq_iff hp]
      linear_combination hr
    rw [this]
    ring
  · intro h
    unfold gamma
    simp only
    rw [if_neg (by linarith)]

/-- C95: it slows the flow at least as much as an implicit step with the same rate `r`, which divides by `1 + r dt`. -/
theorem C95_manning_implicit (g n dt : ℝ) (hg : 0 ≤ g) (hdt : 0 ≤ dt) (f : Flow) (h : ℝ) (hs : f.stage = f.elev + h) (hh : 0 < h) (r : ℝ)
    (hr : r * h ^ (7 / 3 : ℝ) = g * n ^ 2 * f.speed) : (manning g n dt f).speed ≤ f.speed / (1 + r * dt) := by
  obtain ⟨a, hsc, ha, _, hexp, _⟩ := C95_manning g n dt hg hdt f
  rw [scaled_speed ha.le hsc, hexp h hs hh r hr]
  have hr0 : 0 ≤ r := by
    have : 0 ≤ r * h ^ (7 / 3 : ℝ) := by rw [hr]; have := f.speed_nonneg; positivity
    exact nonneg_of_mul_nonneg_left this (Real.rpow_pos_of_pos hh _)
  have h1 : 0 < 1 + r * dt := by positivity
  rw [le_div_iff₀ h1, mul_right_comm]
  apply mul_le_of_le_one_left f.speed_nonneg
  rw [Real.exp_neg, inv_mul_le_iff₀ (Real.exp_pos _)]
  have := Real.add_one_le_exp (r * dt)
  linarith

/-- C95: two half steps slow the flow at most as much as one step, where there is water: shorter time steps never mean more friction. -/
theorem C95_half_steps (g n dt : ℝ) (hg : 0 ≤ g) (hdt : 0 ≤ dt) (f : Flow) (hw : f.elev < f.stage) :
    (manning g n dt f).speed ≤ (manning g n (dt / 2) (manning g n (dt / 2) f)).speed := by
  have hdt2 : 0 ≤ dt / 2 := by linarith
  have s1 : Scaled (Real.exp (gamma g n f * dt)) f (manning g n dt f) := ⟨rfl, rfl, rfl, rfl⟩
  have s2 : Scaled (Real.exp (gamma g n f * (dt / 2))) f (manning g n (dt / 2) f) := ⟨rfl, rfl, rfl, rfl⟩
  have s3 : Scaled (Real.exp (gamma g n (manning g n (dt / 2) f) * (dt / 2))) (manning g n (dt / 2) f)
    (manning g n (dt / 2) (manning g n (dt / 2) f)) := ⟨rfl, rfl, rfl, rfl⟩
  rw [scaled_speed (Real.exp_pos _).le s1, scaled_speed (Real.exp_pos _).le s3, scaled_speed (Real.exp_pos _).le s2, ← mul_assoc,
    ← Real.exp_add]
  apply mul_le_mul_of_nonneg_right _ f.speed_nonneg
  rw [Real.exp_le_exp]
  have hle : gamma g n f ≤ gamma g n (manning g n (dt / 2) f) := by
    have hsp : (manning g n (dt / 2) f).speed ≤ f.speed := by
      rw [scaled_speed (Real.exp_pos _).le s2]
      calc _ ≤ 1 * f.speed := by
            apply mul_le_mul_of_nonneg_right _ f.speed_nonneg
            rw [Real.exp_le_one_iff]
            exact mul_nonpos_of_nonpos_of_nonneg (gamma_nonpos g n hg f) hdt2
        _ = f.speed := one_mul _
    have hst : (manning g n (dt / 2) f).stage - (manning g n (dt / 2) f).elev = f.stage - f.elev := rfl
    unfold gamma
    simp only [hst]
    have hpos : 0 < f.stage - f.elev := by linarith
    rw [if_pos hpos, if_pos hpos]
    apply div_le_div_of_nonneg_right _ (Real.rpow_nonneg hpos.le _)
    have h0 : 0 ≤ g * n ^ 2 := by positivity
    nlinarith
  nlinarith

/-- C95: deeper water is slowed less, rougher ground slows more. -/
theorem C95_depth_roughness (g n n' dt : ℝ) (hg : 0 ≤ g) (hn : 0 ≤ n) (hnn : n ≤ n') (hdt : 0 ≤ dt) (f f' : Flow) (hw : f.elev < f.stage)
    (hx : f'.xmom = f.xmom) (hy : f'.ymom = f.ymom) (hd : f.stage - f.elev ≤ f'.stage - f'.elev) :
    (manning g n dt f).speed ≤ (manning g n dt f').speed ∧ (manning g n' dt f).speed ≤ (manning g n dt f).speed := by
  have sc : ∀ g n dt f, Scaled (Real.exp (gamma g n f * dt)) f (manning g n dt f) := fun _ _ _ _ => ⟨rfl, rfl, rfl, rfl⟩
  have hsp : f'.speed = f.speed := by unfold Flow.speed; rw [hx, hy]
  have hpos : 0 < f.stage - f.elev := by linarith
  have hpos' : 0 < f'.stage - f'.elev := by linarith
  rw [scaled_speed (Real.exp_pos _).le (sc g n dt f), scaled_speed (Real.exp_pos _).le (sc g n dt f'),
    scaled_speed (Real.exp_pos _).le (sc g n' dt f), hsp]
  have hs0 := f.speed_nonneg
  constructor
  · apply mul_le_mul_of_nonneg_right _ hs0
    rw [Real.exp_le_exp]
    apply mul_le_mul_of_nonneg_right _ hdt
    unfold gamma
    simp only
    rw [if_pos hpos, if_pos hpos', hsp]
    have e1 : ∀ x : ℝ, -g * n ^ 2 * f.speed / x = -(g * n ^ 2 * f.speed / x) := fun x => by ring
    rw [e1, e1, neg_le_neg_iff]
    apply div_le_div_of_nonneg_left (by positivity) (Real.rpow_pos_of_pos hpos _)
    exact Real.rpow_le_rpow hpos.le hd (by norm_num)
  · apply mul_le_mul_of_nonneg_right _ hs0
    rw [Real.exp_le_exp]
    apply mul_le_mul_of_nonneg_right _ hdt
    unfold gamma
    simp only
    rw [if_pos hpos, if_pos hpos]
    apply div_le_div_of_nonneg_right _ (Real.rpow_nonneg hpos.le _)
    have h1 : n ^ 2 ≤ n' ^ 2 := pow_le_pow_left₀ hn hnn 2
    have h2 : g * n ^ 2 * f.speed ≤ g * n' ^ 2 * f.speed :=
      mul_le_mul_of_nonneg_right (mul_le_mul_of_nonneg_left h1 hg) hs0
    linarith

/-! ### Friction from the depth -/

variable {K : Type*} [Field K] [LinearOrder K] [IsStrictOrderedRing K]

/-- C95: a friction function that always returns floats, or a number, is applied to the depth of each triangle of a region that is not empty;
the others keep their friction. -/
theorem C95_depth_friction [FloorRing K] (d : Dom K) (f : K → K) (indices : Option (List ℕ)) (hne : cells d indices ≠ []) (s : State K)
    (friction : ℕ → K) :
    ∃ q, depthFriction d (.call fun h => .float (f h)) indices s friction = some q ∧
      ∀ k, (k ∈ cells d indices → q k = f (depth s k)) ∧ (k ∉ cells d indices → q k = friction k) := by
  have hv : ∀ l : List K, l ≠ [] → vectorize (fun h => Num.float (f h)) l = some (l.map f) := by
    intro l hl
    cases l with
    | nil => exact absurd rfl hl
    | cons a l => rfl
  refine ⟨put friction (cells d indices) ((cells d indices).map fun k => f (depth s k)), ?_, fun k => ?_⟩
  · unfold depthFriction Friction.fn
    simp only
    rw [hv _ (by simpa using hne), List.map_map]
    rfl
  · rw [put_map]
    exact ⟨fun h => if_pos h, fun h => if_neg h⟩

/-- C95: a number, whole or not, is given to all triangles of the region. -/
theorem C95_constant_friction [FloorRing K] (d : Dom K) (v : Num K) (indices : Option (List ℕ)) (hne : cells d indices ≠ []) (s : State K)
    (friction : ℕ → K) :
    ∃ q, depthFriction d (.number v) indices s friction = some q ∧
      ∀ k, (k ∈ cells d indices → (∀ z, v = .int z → q k = z) ∧ ∀ x, v = .float x → q k = x) ∧
        (k ∉ cells d indices → q k = friction k) := by
  have hv : ∀ l : List K, l ≠ [] → vectorize (fun _ => v) l = some (l.map fun _ => v.as v) := by
    intro l hl
    cases l with
    | nil => exact absurd rfl hl
    | cons a l => rfl
  refine ⟨put friction (cells d indices) ((cells d indices).map fun _ => v.as v), ?_, fun k => ?_⟩
  · unfold depthFriction Friction.fn
    simp only
    rw [hv _ (by simpa using hne), List.map_map]
    rfl
  · rw [put_map]
    refine ⟨fun h => ?_, fun h => if_neg h⟩
    rw [if_pos h]
    exact ⟨fun z hz => by rw [hz]; rfl, fun x hx => by rw [hx]; rfl⟩

/-- C95, disagreement: if the function returns a whole number for the first triangle of the region, the fractions of all others are cut off: a
friction below one becomes zero. -/
theorem C95_truncated [FloorRing K] (d : Dom K) (f : K → Num K) (k₀ : ℕ) (ids : List ℕ) (z : ℤ) (s : State K) (friction : ℕ → K)
    (h0 : f (depth s k₀) = .int z) :
    ∃ q, depthFriction d (.call f) (some (k₀ :: ids)) s friction = some q ∧
      ∀ k ∈ ids, ∀ x, f (depth s k) = .float x → 0 ≤ x → x < 1 → q k = 0 := by
  refine ⟨put friction (k₀ :: ids) ((k₀ :: ids).map fun k => (f (depth s k₀)).as (f (depth s k))), ?_, fun k hk x hx h1 h2 => ?_⟩
  · unfold depthFriction Friction.fn cells
    simp only [Option.getD_some, List.map_cons, vectorize, List.map_map]
    rfl
  · rw [put_map, if_pos (List.mem_cons_of_mem _ hk), h0, hx]
    simp only [Num.as, truncate, if_pos h1]
    have : ⌊x⌋ = 0 := by rw [Int.floor_eq_iff]; simp [h1, h2]
    rw [this]
    simp

/-- C95, disagreement: for an empty region, documented to be no region at all, the operator fails. -/
theorem C95_empty_region [FloorRing K] (d : Dom K) (fr : Friction K) (s : State K) (friction : ℕ → K) :
    depthFriction d fr (some []) s friction = none := by
  unfold depthFriction
  cases fr <;> rfl

/-! ### Setting stage and momentum -/

/-- C95: stage and momentum of the triangles of the region are those given, other triangles and the bed stay; `None` changes nothing; a single
number is refused. -/
theorem C95_set_flow (d : Dom K) (indices : Option (List ℕ)) (s : State K) :
    (∀ w uh vh, ∃ s', setFlow d (.three w uh vh) indices s = some s' ∧ s'.elev = s.elev ∧ s'.ev = s.ev ∧ s'.ee = s.ee ∧
      ∀ k, (k ∈ cells d indices → s'.stage k = w ∧ s'.xmom k = uh ∧ s'.ymom k = vh) ∧
        (k ∉ cells d indices → s'.stage k = s.stage k ∧ s'.xmom k = s.xmom k ∧ s'.ymom k = s.ymom k)) ∧
    setFlow d .nothing indices s = some s ∧ ∀ v, setFlow d (.number v) indices s = none := by
  refine ⟨fun w uh vh => ⟨_, rfl, rfl, rfl, rfl, fun k => ?_⟩, rfl, fun _ => rfl⟩
  simp only [put_map]
  refine ⟨fun h => ?_, fun h => ?_⟩
  · rw [if_pos h, if_pos h, if_pos h]; exact ⟨rfl, rfl, rfl⟩
  · rw [if_neg h, if_neg h, if_neg h]; exact ⟨rfl, rfl, rfl⟩

/-- C95, disagreement: a stage below the bed is not refused or lifted: the depth becomes negative. -/
theorem C95_below_bed (d : Dom K) (indices : Option (List ℕ)) (s : State K) (w uh vh : K) (k : ℕ) (hk : k ∈ cells d indices)
    (hw : w < s.elev k) : ∃ s', setFlow d (.three w uh vh) indices s = some s' ∧ depth s' k < 0 := by
  obtain ⟨s', h, he, _, _, hs⟩ := (C95_set_flow d indices s).1 w uh vh
  refine ⟨s', h, ?_⟩
  unfold depth
  rw [((hs k).1 hk).1, he]
  linarith

/-! ### Examples -/

/-- Water one deep, moving with momentum (3, 4): the rate is `5 g n ^ 2`. -/
example : ∃ f : Flow, f.elev < f.stage ∧ f.speed = 5 ∧ (5 * 9.8 * 0.03 ^ 2 : ℝ) * (1 : ℝ) ^ (7 / 3 : ℝ) = 9.8 * 0.03 ^ 2 * f.speed := by
  have hs : (Flow.mk 1 0 3 4).speed = 5 := by
    unfold Flow.speed
    norm_num
    rw [Real.sqrt_eq_iff_mul_self_eq] <;> norm_num
  exact ⟨⟨1, 0, 3, 4⟩, by norm_num, hs, by rw [hs, Real.one_rpow]; norm_num⟩

/-- Two triangles of depth 1 and 3: friction 0.03 in the first, 0.02 in the second. -/
example : ((depthFriction (square true true) (.call fun h => .float (if h < 2 then 3 / 100 else 2 / 100)) none
    { pond with stage := fun k => [2, 4].getD k 0 } fun _ => 0).map fun q => (List.range 2).map q) = some [3 / 100, 2 / 100] := by
  decide +kernel

/-- The same function returning a whole number in shallow water: the second triangle loses its friction; the other way round all is well. -/
example : ((depthFriction (square true true) (.call fun h => if h < 2 then .int 0 else .float (2 / 100)) none
    { pond with stage := fun k => [2, 4].getD k 0 } fun _ => 0).map fun q => (List.range 2).map q) = some [0, 0] := by
  decide +kernel
example : ((depthFriction (square true true) (.call fun h => if h < 2 then .int 0 else .float (2 / 100)) none
    { pond with stage := fun k => [4, 2].getD k 0 } fun _ => 0).map fun q => (List.range 2).map q) = some [2 / 100, 0] := by
  decide +kernel

/-- Stage 3 and momentum (1, 2) in the second triangle; stage 0 lies below the bed. -/
example : ((setFlow (square true true) (.three 3 1 2) (some [1]) pond).map fun s =>
    ((List.range 2).map s.stage, (List.range 2).map s.xmom, (List.range 2).map s.ymom)) = some ([2, 3], [0, 1], [0, 2]) := by decide +kernel
example : ((setFlow (square true true) (.three 0 1 2) (some [1]) pond).map fun s => (List.range 2).map (depth s)) = some [1, -1] := by
  decide +kernel

end Verif.Erode
