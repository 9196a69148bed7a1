import Verif.Flux.Lemmas
import Verif.Flux.Sample
import Mathlib.Analysis.SpecialFunctions.Pow.Real

/-! # C51: flow over river walls -/

namespace Verif.Flux

set_option linter.unusedSectionVars false

variable {K : Type*} [Field K] [LinearOrder K] [IsStrictOrderedRing K]

/-! ## Vocabulary -/

/-- What is used of the library functions. -/
structure WeirFns (c : Consts K) : Prop where
  g : 0 < c.g
  sqrt_nonneg : ∀ x, 0 ≤ x → 0 ≤ c.sqrt x
  sqrt_mono : ∀ x y, 0 ≤ x → x ≤ y → c.sqrt x ≤ c.sqrt y
  pow_range : ∀ x, 0 ≤ x → x ≤ 1 → 0 ≤ c.pow385 x ∧ c.pow385 x ≤ 1
  pow_one : c.pow385 1 = 1
  pow_zero : c.pow385 0 = 0

/-- Parameters the user may give. -/
structure Sensible (p : WallProps K) : Prop where
  q : 0 ≤ p.qfactor
  s : p.s1 < p.s2
  h : p.h1 < p.h2

/-- Free discharge over a weir under a head `H`: `Q 2/3 H sqrt(2/3 g H)`. -/
def free (c : Consts K) (p : WallProps K) (H : K) : K := p.qfactor * (2 / 3) * H * c.sqrt (2 / 3 * c.g * H)

/-- Discharge from the side of head `up` to the side of head `down`, reduced for submergence by Villemonte's formula. -/
def villemonte (c : Consts K) (p : WallProps K) (up down : K) : K :=
  free c p up * c.pow385 (1 - free c p down / max (free c p up) (1 / 10 ^ 100))

/-- Signed discharge from left to right. -/
def discharge (c : Consts K) (p : WallProps K) (hl hr : K) : K :=
  if hr ≤ hl then villemonte c p hl hr else -villemonte c p hr hl

/-- Submergence: lower head over higher head. -/
def submergence (hl hr : K) : K := min hl hr / max (max hl hr) (1 / 10 ^ 100)

/-- Lower head relative to the height of the wall. -/
def relDepth (hl hr wh : K) : K := min hl hr / max wh (1 / 10 ^ 100)

theorem weir_flux (c : Consts K) (f : Q3 K) (speed hl hr wh : K) (p : WallProps K) :
    (weir c f speed hl hr wh p).1 = weirBlend f (discharge c p hl hr) (submergence hl hr) (relDepth hl hr wh) p := by
  unfold weir discharge villemonte free submergence relDepth
  by_cases h : hr ≤ hl
  · have h' : ¬ hr > hl := not_lt.mpr h
    simp only [h, h', if_true, if_false, max_eq_left h, min_eq_right h]
  · have h' : hr > hl := not_le.mp h
    simp only [h, h', if_true, if_false, max_eq_right h'.le, min_eq_left h'.le]

theorem weight_range {a b x : K} (h : a < b) : 0 ≤ min (max (x - a) 0 / (b - a)) 1 ∧ min (max (x - a) 0 / (b - a)) 1 ≤ 1 := by
  have : 0 < b - a := sub_pos.mpr h
  exact ⟨le_min (div_nonneg (le_max_right _ _) this.le) zero_le_one, min_le_right _ _⟩

theorem free_nonneg {c : Consts K} (hc : WeirFns c) {p : WallProps K} (hp : Sensible p) {H : K} (hH : 0 ≤ H) : 0 ≤ free c p H := by
  unfold free
  have := hp.q
  have := hc.g
  have := hc.sqrt_nonneg (2 / 3 * c.g * H) (by positivity)
  positivity

theorem free_mono {c : Consts K} (hc : WeirFns c) {p : WallProps K} (hp : Sensible p) {H G : K} (hH : 0 ≤ H) (hG : H ≤ G) : free c p H ≤ free c p G := by
  unfold free
  have h1 := hp.q
  have h2 := hc.g
  have h3 := hc.sqrt_nonneg (2 / 3 * c.g * H) (by positivity)
  have h4 : c.sqrt (2 / 3 * c.g * H) ≤ c.sqrt (2 / 3 * c.g * G) := hc.sqrt_mono _ _ (by positivity) (by gcongr)
  have h5 := hH.trans hG
  gcongr

/-! ## The properties -/

/-- **C51.** The mass flux over a wall lies between the weir discharge and the shallow water flux. -/
theorem C51_between (c : Consts K) (f : Q3 K) (speed hl hr wh : K) {p : WallProps K} (hp : Sensible p) :
    min (discharge c p hl hr) f.w ≤ (weir c f speed hl hr wh p).1.w ∧ (weir c f speed hl hr wh p).1.w ≤ max (discharge c p hl hr) f.w := by
  rw [weir_flux]
  unfold weirBlend
  by_cases h : submergence hl hr < p.s2 ∧ relDepth hl hr wh < p.h2
  · rw [if_pos h]
    simp only
    obtain ⟨a1, a2⟩ := weight_range (x := submergence hl hr) hp.s
    obtain ⟨b1, b2⟩ := weight_range (x := relDepth hl hr wh) hp.h
    generalize min (max (submergence hl hr - p.s1) 0 / (p.s2 - p.s1)) 1 = u at *
    generalize min (max (relDepth hl hr wh - p.h1) 0 / (p.h2 - p.h1)) 1 = v at *
    generalize discharge c p hl hr = R at *
    have e : (R * (1 - u) + u * f.w) * (1 - v) + v * f.w = ((1 - u) * (1 - v)) * R + (1 - (1 - u) * (1 - v)) * f.w := by ring
    rw [e]
    have k1 : 0 ≤ (1 - u) * (1 - v) := mul_nonneg (by linarith) (by linarith)
    have k2 : (1 - u) * (1 - v) ≤ 1 := mul_le_one₀ (by linarith) (by linarith) (by linarith)
    generalize (1 - u) * (1 - v) = t at *
    have m1 := min_le_left R f.w
    have m2 := min_le_right R f.w
    have m3 := le_max_left R f.w
    have m4 := le_max_right R f.w
    constructor <;> nlinarith
  · rw [if_neg h]
    exact ⟨min_le_right _ _, le_max_right _ _⟩

/-- **C51.** It is the weir discharge as long as neither threshold for blending is passed. -/
theorem C51_weir_regime (c : Consts K) (f : Q3 K) (speed hl hr wh : K) {p : WallProps K} (hp : Sensible p)
    (h1 : submergence hl hr ≤ p.s1) (h2 : relDepth hl hr wh ≤ p.h1) : (weir c f speed hl hr wh p).1.w = discharge c p hl hr := by
  rw [weir_flux]
  unfold weirBlend
  rw [if_pos ⟨h1.trans_lt hp.s, h2.trans_lt hp.h⟩]
  simp only [max_eq_right (sub_nonpos.mpr h1), max_eq_right (sub_nonpos.mpr h2), zero_div, min_eq_left (zero_le_one (α := K))]
  ring

/-- **C51.** Past either end of blending the shallow water fluxes are untouched. -/
theorem C51_submerged (c : Consts K) (f : Q3 K) (speed hl hr wh : K) (p : WallProps K)
    (h : p.s2 ≤ submergence hl hr ∨ p.h2 ≤ relDepth hl hr wh) : (weir c f speed hl hr wh p).1 = f := by
  rw [weir_flux]
  unfold weirBlend
  rw [if_neg]
  rintro ⟨h1, h2⟩
  rcases h with h | h
  · exact absurd h (not_le.mpr h1)
  · exact absurd h (not_le.mpr h2)

/-- **C51.** The change to shallow water is gradual: the difference from the shallow water flux is at most that of the weir
discharge times the distance to either threshold. -/
theorem C51_gradual (c : Consts K) (f : Q3 K) (speed hl hr wh : K) {p : WallProps K} (hp : Sensible p)
    (h1 : submergence hl hr < p.s2) (h2 : relDepth hl hr wh < p.h2) :
    |(weir c f speed hl hr wh p).1.w - f.w| ≤ |discharge c p hl hr - f.w| * ((p.s2 - submergence hl hr) / (p.s2 - p.s1)) ∧
      |(weir c f speed hl hr wh p).1.w - f.w| ≤ |discharge c p hl hr - f.w| * ((p.h2 - relDepth hl hr wh) / (p.h2 - p.h1)) := by
  have key : ∀ {a b x : K}, a < b → x < b → 1 - min (max (x - a) 0 / (b - a)) 1 ≤ (b - x) / (b - a) := by
    intro a b x hab hx
    have hd : 0 < b - a := sub_pos.mpr hab
    have e : (b - x) / (b - a) = 1 - (x - a) / (b - a) := by field_simp; ring
    rw [e]
    have : (x - a) / (b - a) ≤ min (max (x - a) 0 / (b - a)) 1 := by
      apply le_min
      · exact div_le_div_of_nonneg_right (le_max_left _ _) hd.le
      · rw [div_le_one hd]; linarith
    linarith
  rw [weir_flux]
  unfold weirBlend
  rw [if_pos ⟨h1, h2⟩]
  simp only
  obtain ⟨a1, a2⟩ := weight_range (x := submergence hl hr) hp.s
  obtain ⟨b1, b2⟩ := weight_range (x := relDepth hl hr wh) hp.h
  have k1 := key hp.s h1
  have k2 := key hp.h h2
  generalize min (max (submergence hl hr - p.s1) 0 / (p.s2 - p.s1)) 1 = u at *
  generalize min (max (relDepth hl hr wh - p.h1) 0 / (p.h2 - p.h1)) 1 = v at *
  generalize discharge c p hl hr = R at *
  have e : (R * (1 - u) + u * f.w) * (1 - v) + v * f.w - f.w = (R - f.w) * ((1 - u) * (1 - v)) := by ring
  rw [e, abs_mul]
  have k3 : 0 ≤ (1 - u) * (1 - v) := mul_nonneg (by linarith) (by linarith)
  rw [abs_of_nonneg k3]
  have k4 : (1 - u) * (1 - v) ≤ 1 - u := mul_le_of_le_one_right (by linarith) (by linarith)
  have k5 : (1 - u) * (1 - v) ≤ 1 - v := mul_le_of_le_one_left (by linarith) (by linarith)
  exact ⟨mul_le_mul_of_nonneg_left (k4.trans k1) (abs_nonneg _), mul_le_mul_of_nonneg_left (k5.trans k2) (abs_nonneg _)⟩

/-- **C51.** Both momentum fluxes are multiplied by one factor: the ratio of new and old mass flux, limited to the range from 0
to 10. -/
theorem C51_momentum (c : Consts K) (f : Q3 K) (speed hl hr wh : K) (p : WallProps K) :
    ∃ k, 0 ≤ k ∧ k ≤ 10 ∧ (weir c f speed hl hr wh p).1.x = k * f.x ∧ (weir c f speed hl hr wh p).1.y = k * f.y ∧
      (1 / 10 ^ 100 < |f.w| → k = min (max ((weir c f speed hl hr wh p).1.w / f.w) 0) 10) := by
  rw [weir_flux]
  unfold weirBlend
  by_cases h : submergence hl hr < p.s2 ∧ relDepth hl hr wh < p.h2
  · rw [if_pos h]
    simp only
    refine ⟨_, le_min (le_max_right _ 0) (by norm_num), min_le_right _ 10, mul_comm _ _, mul_comm _ _, fun hw => ?_⟩
    rw [if_pos hw]
  · rw [if_neg h]
    refine ⟨1, zero_le_one, by norm_num, (one_mul _).symm, (one_mul _).symm, fun hw => ?_⟩
    have : f.w ≠ 0 := by
      intro h0
      rw [h0, abs_zero] at hw
      exact absurd hw (not_lt.mpr (by positivity))
    rw [div_self this, max_eq_left zero_le_one, min_eq_left (by norm_num)]

/-- **C51.** The weir discharge goes from the higher to the lower head, does not exceed the free discharge, and is the free discharge
when the lower side is dry. -/
theorem C51_discharge {c : Consts K} (hc : WeirFns c) {p : WallProps K} (hp : Sensible p) {hl hr : K} (h0 : 0 ≤ hl) (h1 : 0 ≤ hr) :
    (hr ≤ hl → 0 ≤ discharge c p hl hr ∧ discharge c p hl hr ≤ free c p hl) ∧
      (hl ≤ hr → discharge c p hl hr ≤ 0 ∨ hl = hr) ∧ (hl < hr → -free c p hr ≤ discharge c p hl hr ∧ discharge c p hl hr = -discharge c p hr hl) ∧
      discharge c p hl 0 = free c p hl ∧ (1 / 10 ^ 100 ≤ free c p hl → discharge c p hl hl = 0) := by
  have key : ∀ {a b : K}, 0 ≤ b → b ≤ a → 0 ≤ villemonte c p a b ∧ villemonte c p a b ≤ free c p a := by
    intro a b hb hab
    have f1 := free_nonneg hc hp hb
    have f2 := free_mono hc hp hb hab
    have f3 := f1.trans f2
    have hm : 0 < max (free c p a) (1 / 10 ^ 100) := lt_of_lt_of_le (by positivity) (le_max_right _ _)
    have r1 : 0 ≤ free c p b / max (free c p a) (1 / 10 ^ 100) := div_nonneg f1 hm.le
    have r2 : free c p b / max (free c p a) (1 / 10 ^ 100) ≤ 1 := by
      rw [div_le_one hm]; exact f2.trans (le_max_left _ _)
    obtain ⟨q1, q2⟩ := hc.pow_range (1 - free c p b / max (free c p a) (1 / 10 ^ 100)) (by linarith) (by linarith)
    unfold villemonte
    exact ⟨mul_nonneg f3 q1, mul_le_of_le_one_right f3 q2⟩
  have hf0 : free c p 0 = 0 := by unfold free; ring
  refine ⟨fun h => ?_, fun h => ?_, fun h => ?_, ?_, fun h => ?_⟩
  · unfold discharge
    rw [if_pos h]
    exact key h1 h
  · rcases h.lt_or_eq with h | h
    · left
      unfold discharge
      rw [if_neg (not_le.mpr h)]
      linarith [(key h0 h.le).1]
    · exact Or.inr h
  · unfold discharge
    rw [if_neg (not_le.mpr h), if_pos h.le]
    exact ⟨by linarith [(key h0 h.le).2], rfl⟩
  · unfold discharge villemonte
    rw [if_pos h0, hf0, zero_div, sub_zero, hc.pow_one, mul_one]
  · unfold discharge villemonte
    have hpos : (0 : K) < 1 / 10 ^ 100 := by positivity
    rw [if_pos le_rfl, max_eq_left h, div_self (hpos.trans_le h).ne', sub_self, hc.pow_zero, mul_zero]

/-- **C51.** A wall acts as a weir only where it is higher than the beds of both triangles and some water stands above it;
otherwise it merely raises the bed at the edge. -/
theorem C51_low_wall (c : Consts K) (x : EdgeIn K) (elev : K) (p : WallProps K) (hw : x.wall = some (elev, p))
    (h : elev ≤ max x.zcl x.zcr ∨ (x.wcl ≤ max elev (max x.zl x.zr) ∧ x.wcr ≤ max elev (max x.zl x.zr))) :
    let z := max elev (max x.zl x.zr)
    let o := fluxCentral c x.ql x.qr (max (x.hle + x.zl - z) 0) (max (x.hre + x.zr - z) 0) x.hle x.hre x.n1 x.n2 z
    (edgeCompute c x).flux = ⟨o.flux.w * x.len, o.flux.x * x.len, o.flux.y * x.len⟩ ∧ (edgeCompute c x).speed = o.speed := by
  have hz : zHalf x = max elev (max x.zl x.zr) := by unfold zHalf; rw [hw]
  unfold edgeCompute
  simp only [hw, hz]
  rcases h with h | ⟨h1, h2⟩
  · rw [if_neg (not_lt.mpr h)]
    exact ⟨rfl, rfl⟩
  · have e1 : max (x.wcl - max elev (max x.zl x.zr)) 0 = 0 := max_eq_right (sub_nonpos.mpr h1)
    have e2 : max (x.wcr - max elev (max x.zl x.zr)) 0 = 0 := max_eq_right (sub_nonpos.mpr h2)
    rw [e1, e2]
    split_ifs with h3 h4
    · simp at h4
    · exact ⟨rfl, rfl⟩
    · exact ⟨rfl, rfl⟩

/-- **C51.** Where it acts as a weir, the edge flux is that of the weir relation applied to the heads above the wall. -/
theorem C51_high_wall (c : Consts K) (x : EdgeIn K) (elev : K) (p : WallProps K) (hw : x.wall = some (elev, p))
    (h : max x.zcl x.zcr < elev) (h1 : max elev (max x.zl x.zr) < x.wcl ∨ max elev (max x.zl x.zr) < x.wcr) :
    let z := max elev (max x.zl x.zr)
    let o := fluxCentral c x.ql x.qr (max (x.hle + x.zl - z) 0) (max (x.hre + x.zr - z) 0) x.hle x.hre x.n1 x.n2 z
    (edgeCompute c x).flux.w =
      (weir c o.flux o.speed (max (x.wcl - z) 0) (max (x.wcr - z) 0) (max (elev - min x.zl x.zr) 0) p).1.w * x.len := by
  have hz : zHalf x = max elev (max x.zl x.zr) := by unfold zHalf; rw [hw]
  unfold edgeCompute
  simp only [hw, hz]
  rw [if_pos h, if_pos]
  rcases h1 with h1 | h1
  · exact Or.inl (lt_max_of_lt_left (sub_pos.mpr h1))
  · exact Or.inr (lt_max_of_lt_left (sub_pos.mpr h1))

/-! ## The hypotheses can be met -/

/-- The default parameters of river walls. -/
def defaultWall : WallProps ℚ := ⟨1, 9 / 10, 95 / 100, 1, 3 / 2⟩

example : Sensible defaultWall := ⟨by norm_num [defaultWall], by norm_num [defaultWall], by norm_num [defaultWall]⟩

/-- constants with the square root replaced by a monotone function that is exact on 0 and 1 -/
def linearC : Consts ℚ := { g := 98 / 10, eps := 1 / 10 ^ 12, lowFroude := 1, sqrt := fun x => x, pow385 := fun x => x }

example : WeirFns linearC := ⟨by norm_num [linearC], fun x h => h, fun x y _ h => h, fun x h h' => ⟨h, h'⟩, rfl, rfl⟩

/-- the functions of the C library, on the reals -/
noncomputable def realC : Consts ℝ := { g := 9.8, eps := 1 / 10 ^ 12, lowFroude := 1, sqrt := Real.sqrt, pow385 := fun x => x ^ (0.385 : ℝ) }

example : WeirFns realC :=
  ⟨by norm_num [realC], fun x _ => Real.sqrt_nonneg x, fun x y _ h => Real.sqrt_le_sqrt h,
    fun x h h' => ⟨Real.rpow_nonneg h _, Real.rpow_le_one h h' (by norm_num)⟩, Real.one_rpow _, Real.zero_rpow (by norm_num)⟩

-- weir regime, blending and submerged
example : submergence (1 : ℚ) (1 / 2) ≤ 9 / 10 ∧ relDepth (1 : ℚ) (1 / 2) 2 ≤ 1 := by
  unfold submergence relDepth; norm_num

example : (weir linearC ⟨1, 2, 3⟩ 0 1 (1 / 2) 2 defaultWall).1.w = discharge linearC defaultWall 1 (1 / 2) := by decide +kernel

example : (weir linearC ⟨1, 2, 3⟩ 0 1 (92 / 100) 2 defaultWall).1.w ≠ discharge linearC defaultWall 1 (92 / 100) ∧
    (weir linearC ⟨1, 2, 3⟩ 0 1 (92 / 100) 2 defaultWall).1.w ≠ 1 := by decide +kernel

example : (95 / 100 : ℚ) ≤ submergence (1 : ℚ) (96 / 100) := by unfold submergence; norm_num

end Verif.Flux
