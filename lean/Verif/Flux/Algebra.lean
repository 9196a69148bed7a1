import Verif.Flux.Spec

set_option linter.unusedSectionVars false

namespace Verif.Flux

variable {K : Type*} [Field K] [LinearOrder K] [IsStrictOrderedRing K]

theorem sideVel_neg (h he x y : K) :
    sideVel h he (-x) (-y) = (-(sideVel h he x y).1, -(sideVel h he x y).2.1, -(sideVel h he x y).2.2.1,
      -(sideVel h he x y).2.2.2) := by
  unfold sideVel
  split_ifs <;> simp

theorem localFr_swap (c : Consts K) (ul vl ur vr cl cr : K) :
    localFr c (-ur) (-vr) (-ul) (-vl) cr cl = localFr c ul vl ur vr cl cr := by
  have e1 : -ul * -ul + -ur * -ur + -vl * -vl + -vr * -vr = ur * ur + ul * ul + vr * vr + vl * vl := by ring
  have e2 : cr * cr + cl * cl + 1 / 10 ^ 10 = cl * cl + cr * cr + 1 / (10 : K) ^ 10 := by ring
  unfold localFr
  simp only [e1, e2]

theorem clampMax_neg (a : K) : (if -a < 0 then (0 : K) else -a) = -(if a > 0 then 0 else a) := by
  by_cases h : a > 0
  · rw [if_pos (by linarith), if_pos h]; ring
  · rw [if_neg (by linarith), if_neg h]

theorem clampMin_neg (a : K) : (if -a > 0 then (0 : K) else -a) = -(if a < 0 then 0 else a) := by
  by_cases h : a < 0
  · rw [if_pos (by linarith), if_pos h]; ring
  · rw [if_neg (by linarith), if_neg h]

theorem max_negs (a b : K) : max (-a) (-b) = -min a b := by
  rcases le_total a b with h | h
  · rw [min_eq_left h, max_eq_left (neg_le_neg h)]
  · rw [min_eq_right h, max_eq_right (neg_le_neg h)]

theorem min_negs (a b : K) : min (-a) (-b) = -max a b := by
  rcases le_total a b with h | h
  · rw [max_eq_right h, min_eq_right (neg_le_neg h)]
  · rw [max_eq_left h, min_eq_left (neg_le_neg h)]

/-- Seen from the other side, the flux is reversed while speed and pressure are the same. -/
theorem fluxCentral_swap (c : Consts K) (ql qr : Q3 K) (hl hr hle hre n1 n2 ze : K) :
    fluxCentral c qr ql hr hl hre hle (-n1) (-n2) ze =
      { flux := (fluxCentral c ql qr hl hr hle hre n1 n2 ze).flux.neg
        speed := (fluxCentral c ql qr hl hr hle hre n1 n2 ze).speed
        press := (fluxCentral c ql qr hl hr hle hre n1 n2 ze).press } := by
  by_cases h0 : hl = 0 ∧ hr = 0
  · unfold fluxCentral
    rw [if_pos h0, if_pos h0.symm]
    simp [Q3.neg]
  · unfold fluxCentral
    rw [if_neg h0, if_neg (fun h => h0 h.symm)]
    have e1 : rotate qr (-n1) (-n2) = ⟨qr.w, -(rotate qr n1 n2).x, -(rotate qr n1 n2).y⟩ := by
      unfold rotate; simp only [Q3.mk.injEq]; refine ⟨trivial, ?_, ?_⟩ <;> ring
    have e2 : rotate ql (-n1) (-n2) = ⟨ql.w, -(rotate ql n1 n2).x, -(rotate ql n1 n2).y⟩ := by
      unfold rotate; simp only [Q3.mk.injEq]; refine ⟨trivial, ?_, ?_⟩ <;> ring
    have w1 : (rotate qr n1 n2).w = qr.w := rfl
    have w2 : (rotate ql n1 n2).w = ql.w := rfl
    simp only [e1, e2, w1, w2, sideVel_neg]
    generalize hL : sideVel hl hle (rotate ql n1 n2).x (rotate ql n1 n2).y = L
    generalize hR : sideVel hr hre (rotate qr n1 n2).x (rotate qr n1 n2).y = R
    obtain ⟨ul, uhl, vl, vhl⟩ := L
    obtain ⟨ur, uhr, vr, vhr⟩ := R
    simp only
    generalize c.sqrt (c.g * hl) = cl
    generalize c.sqrt (c.g * hr) = cr
    rw [localFr_swap]
    generalize localFr c ul vl ur vr cl cr = fr
    have m1 : max (-ur + cr) (-ul + cl) = -(min (ul - cl) (ur - cr)) := by
      rw [max_comm, ← max_negs]; congr 1 <;> ring
    have m2 : min (-ur - cr) (-ul - cl) = -(max (ul + cl) (ur + cr)) := by
      rw [min_comm, ← min_negs]; congr 1 <;> ring
    rw [m1, m2, clampMax_neg, clampMin_neg]
    generalize (if min (ul - cl) (ur - cr) > 0 then (0 : K) else min (ul - cl) (ur - cr)) = smin
    generalize (if max (ul + cl) (ur + cr) < 0 then (0 : K) else max (ul + cl) (ur + cr)) = smax
    have d : -smin - -smax = smax - smin := by ring
    rw [d]
    by_cases hd : smax - smin < c.eps
    · rw [if_pos hd, if_pos hd]
      simp [Q3.neg, add_comm]
    · rw [if_neg hd, if_neg hd]
      simp only [FluxOut.mk.injEq, Q3.neg, rotate, Q3.mk.injEq]
      refine ⟨⟨?_, ?_, ?_⟩, ?_, ?_⟩
      · ring
      · ring
      · ring
      · rw [neg_neg, max_comm]
      · ring

theorem weirBlend_neg (f : Q3 K) (rw hd hw : K) (p : WallProps K) :
    weirBlend f.neg (-rw) hd hw p = (weirBlend f rw hd hw p).neg := by
  unfold weirBlend
  by_cases hc : hd < p.s2 ∧ hw < p.h2
  · rw [if_pos hc, if_pos hc]
    generalize min (max (hd - p.s1) 0 / (p.s2 - p.s1)) 1 = w1
    generalize min (max (hw - p.h1) 0 / (p.h2 - p.h1)) 1 = w2
    have hn : (-rw * (1 - w1) + w1 * f.neg.w) * (1 - w2) + w2 * f.neg.w =
        -((rw * (1 - w1) + w1 * f.w) * (1 - w2) + w2 * f.w) := by simp only [Q3.neg]; ring
    simp only [hn]
    simp only [Q3.neg, abs_neg, neg_div_neg_eq, neg_mul]
  · rw [if_neg hc, if_neg hc]

theorem weirBlend_skip (f : Q3 K) (rw hd hw : K) (p : WallProps K) (h : p.s2 ≤ hd) : weirBlend f rw hd hw p = f := by
  unfold weirBlend
  rw [if_neg (fun hc => absurd hc.1 (not_lt.2 h))]

/-- The weir adjustment is symmetric too, provided equal heads are not positive but below `1e-100` and the upper
submergence ratio is at most one. -/
theorem weir_swap (c : Consts K) (f : Q3 K) (speed hl hr wh : K) (p : WallProps K)
    (hq : hl = hr → 1 / 10 ^ 100 ≤ hl ∧ p.s2 ≤ 1) :
    weir c f.neg speed hr hl wh p = ((weir c f speed hl hr wh p).1.neg, (weir c f speed hl hr wh p).2) := by
  by_cases heq : hl = hr
  · obtain ⟨h1, h2⟩ := hq heq
    subst heq
    have h10 : (0 : K) < 1 / 10 ^ 100 := by positivity
    have hr1 : min hl hl / max (max hl hl) (1 / 10 ^ 100) = 1 := by
      rw [min_self, max_self, max_eq_left h1, div_self (by linarith)]
    unfold weir
    simp only [hr1, weirBlend_skip _ _ 1 _ p h2]
    simp only [Q3.neg, abs_neg, neg_div]
  · have hsign : ∀ x : K, (if hl > hr then -x else x) = -(if hr > hl then -x else x) := by
      intro x
      rcases lt_or_gt_of_ne heq with h | h
      · rw [if_neg (not_lt.2 h.le), if_pos h, neg_neg]
      · rw [if_pos h, if_neg (not_lt.2 h.le)]
    unfold weir
    simp only [min_comm hr hl, max_comm hr hl, hsign, weirBlend_neg]
    simp only [Q3.neg, abs_neg, neg_div]

end Verif.Flux
