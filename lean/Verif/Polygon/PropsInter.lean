import Verif.Polygon.PropsTwo

/-! # C20: intersection of segments -/

namespace Verif.Polygon

set_option linter.unusedSectionVars false

variable {K : Type*} [Field K] [LinearOrder K] [IsStrictOrderedRing K]

/-- Cross product of the directions of the two segments; zero exactly when they are parallel (or one is a point). -/
def turn (p0 p1 p2 p3 : Pt K) : K := (p1.x - p0.x) * (p3.y - p2.y) - (p1.y - p0.y) * (p3.x - p2.x)

/-- Squared length. -/
def len2 (a b : Pt K) : K := (b.x - a.x) * (b.x - a.x) + (b.y - a.y) * (b.y - a.y)

/-- The squared distance from `p` to the segment is at most `r`. -/
def Within (r : K) (p a b : Pt K) : Prop :=
  ∃ q, OnSeg q a b ∧ (p.x - q.x) * (p.x - q.x) + (p.y - q.y) * (p.y - q.y) ≤ r

/-- Return status (`none` if an exception is raised). -/
def Inter.status : Inter K → Option ℕ
  | .none0 => some 0
  | .point _ => some 1
  | .segment _ _ => some 2
  | .none3 => some 3
  | .none4 => some 4
  | .error => none
  | .assertion => none

/-! ## One dimension -/

/-- `s` lies between `a` and `b`. -/
def Btw (s a b : K) : Prop := (a ≤ s ∧ s ≤ b) ∨ (b ≤ s ∧ s ≤ a)

/-- Point with coordinate `s` on the line through `o` with direction `d`. -/
def at' (o d : Pt K) (s : K) : Pt K := ⟨o.x + s * d.x, o.y + s * d.y⟩

theorem onSeg_at {o d : Pt K} {s a b : K} (h : Btw s a b) : OnSeg (at' o d s) (at' o d a) (at' o d b) := by
  have main : ∀ a b : K, a ≤ s → s ≤ b → OnSeg (at' o d s) (at' o d a) (at' o d b) := by
    intro a b h1 h2
    rcases eq_or_lt_of_le (h1.trans h2) with e | e
    · have : s = a := le_antisymm (by rw [e]; exact h2) h1
      rw [this]; exact onSeg_left _ _
    · have hd : 0 < b - a := by linarith
      refine ⟨(s - a) / (b - a), div_nonneg (by linarith) hd.le, (div_le_one hd).mpr (by linarith), ?_, ?_⟩
      · have : (s - a) / (b - a) * (b - a) = s - a := div_mul_cancel₀ _ hd.ne'
        simp only [at']
        linear_combination (-d.x) * this
      · have : (s - a) / (b - a) * (b - a) = s - a := div_mul_cancel₀ _ hd.ne'
        simp only [at']
        linear_combination (-d.y) * this
  rcases h with ⟨h1, h2⟩ | ⟨h1, h2⟩
  · exact main a b h1 h2
  · exact (main b a h1 h2).symm

theorem at_inj {o d : Pt K} (hd : ¬ (d.x = 0 ∧ d.y = 0)) {s t : K} (h : at' o d s = at' o d t) : s = t := by
  simp only [at', Pt.mk.injEq] at h
  obtain ⟨h1, h2⟩ := h
  by_contra hne
  apply hd
  have hst : s - t ≠ 0 := sub_ne_zero.mpr hne
  constructor
  · have : (s - t) * d.x = 0 := by linear_combination h1
    exact (mul_eq_zero.mp this).resolve_left hst
  · have : (s - t) * d.y = 0 := by linear_combination h2
    exact (mul_eq_zero.mp this).resolve_left hst

theorem btw_of_onSeg {o d : Pt K} (hd : ¬ (d.x = 0 ∧ d.y = 0)) {s a b : K}
    (h : OnSeg (at' o d s) (at' o d a) (at' o d b)) : Btw s a b := by
  obtain ⟨t, t0, t1, hx, hy⟩ := h
  have e : s = a + t * (b - a) := by
    apply at_inj (o := o) hd
    simp only [at'] at hx hy ⊢
    rw [Pt.mk.injEq]
    exact ⟨by linear_combination hx, by linear_combination hy⟩
  rcases le_total a b with hab | hab
  · left
    have := mul_nonneg t0 (sub_nonneg.mpr hab)
    have := mul_le_mul_of_nonneg_right t1 (sub_nonneg.mpr hab)
    constructor <;> linarith
  · right
    have := mul_nonneg t0 (sub_nonneg.mpr hab)
    have := mul_le_mul_of_nonneg_right t1 (sub_nonneg.mpr hab)
    constructor <;> linarith

/-- Coordinates along the first segment, if it is not a point and the two parallel segments share `q`. -/
theorem coords {p0 p1 p2 p3 q : Pt K} (hd : ¬ (p1.x - p0.x = 0 ∧ p1.y - p0.y = 0)) (ht : turn p0 p1 p2 p3 = 0)
    (h1 : OnSeg q p0 p1) (h2 : OnSeg q p2 p3) :
    ∃ o d : Pt K, ¬ (d.x = 0 ∧ d.y = 0) ∧ ∃ s c e : K, p0 = at' o d 0 ∧ p1 = at' o d 1 ∧ q = at' o d s ∧
      p2 = at' o d c ∧ p3 = at' o d e := by
  refine ⟨p0, ⟨p1.x - p0.x, p1.y - p0.y⟩, hd, ?_⟩
  obtain ⟨s, -, -, sx, sy⟩ := h1
  obtain ⟨t, -, -, tx, ty⟩ := h2
  obtain ⟨k, kx, ky⟩ : ∃ k, p3.x - p2.x = k * (p1.x - p0.x) ∧ p3.y - p2.y = k * (p1.y - p0.y) := by
    unfold turn at ht
    by_cases hx : p1.x - p0.x = 0
    · have hy : p1.y - p0.y ≠ 0 := fun hy => hd ⟨hx, hy⟩
      refine ⟨(p3.y - p2.y) / (p1.y - p0.y), ?_, (div_mul_cancel₀ _ hy).symm⟩
      rw [hx] at ht ⊢
      have : (p1.y - p0.y) * (p3.x - p2.x) = 0 := by linear_combination -ht
      rw [(mul_eq_zero.mp this).resolve_left hy]; ring
    · refine ⟨(p3.x - p2.x) / (p1.x - p0.x), (div_mul_cancel₀ _ hx).symm, ?_⟩
      rw [div_mul_eq_mul_div, eq_div_iff hx]
      linear_combination ht
  refine ⟨s, s - t * k, s + (1 - t) * k, ?_, ?_, ?_, ?_, ?_⟩
  · cases p0; simp [at']
  · cases p1; simp [at']
  · cases q; simp only [at', Pt.mk.injEq]; exact ⟨sx, sy⟩
  · cases p2
    simp only [at', Pt.mk.injEq] at *
    exact ⟨by linear_combination sx - tx - t * kx, by linear_combination sy - ty - t * ky⟩
  · cases p3
    simp only [at', Pt.mk.injEq] at *
    exact ⟨by linear_combination sx - tx + (1 - t) * kx, by linear_combination sy - ty + (1 - t) * ky⟩

theorem table_line {o d : Pt K} (s c e : K) (h1 : Btw s 0 1) (h2 : Btw s c e) (f0 f1 f2 f3 : Bool)
    (g0 : Btw 0 c e → f0 = true) (g1 : Btw 1 c e → f1 = true) (g2 : Btw c 0 1 → f2 = true) (g3 : Btw e 0 1 → f3 = true) :
    ∃ a b, collinear (at' o d 0) (at' o d 1) (at' o d c) (at' o d e) f0 f1 f2 f3 = .segment (at' o d a) (at' o d b) ∧
      Btw s a b := by
  cases f0 <;> cases f1 <;> cases f2 <;> cases f3 <;> simp only [Bool.false_eq_true, imp_false] at g0 g1 g2 g3 <;>
    first
    | exact ⟨_, _, rfl, h1⟩
    | exact ⟨_, _, rfl, h2⟩
    | (exfalso; clear o d; grind [Btw])
    | (refine ⟨_, _, rfl, ?_⟩; clear o d; grind [Btw])

/-- The table returns a segment containing every common point of two parallel segments. -/
theorem table_cover {p0 p1 p2 p3 q : Pt K} (ht : turn p0 p1 p2 p3 = 0) (h1 : OnSeg q p0 p1) (h2 : OnSeg q p2 p3)
    (f0 f1 f2 f3 : Bool) (g0 : OnSeg p0 p2 p3 → f0 = true) (g1 : OnSeg p1 p2 p3 → f1 = true)
    (g2 : OnSeg p2 p0 p1 → f2 = true) (g3 : OnSeg p3 p0 p1 → f3 = true) :
    ∃ a b, collinear p0 p1 p2 p3 f0 f1 f2 f3 = .segment a b ∧ OnSeg q a b := by
  by_cases hd : p1.x - p0.x = 0 ∧ p1.y - p0.y = 0
  · obtain ⟨t, -, -, hx, hy⟩ := h1
    have e0 : q = p0 := by
      cases q; cases p0
      simp only [Pt.mk.injEq] at *
      rw [hx, hy, hd.1, hd.2]; simp
    have e1 : q = p1 := by
      rw [e0]
      cases p1; cases p0
      simp only [Pt.mk.injEq] at *
      exact ⟨by linear_combination -hd.1, by linear_combination -hd.2⟩
    have k0 := g0 (e0 ▸ h2)
    have k1 := g1 (e1 ▸ h2)
    subst k0 k1
    have : collinear p0 p1 p2 p3 true true f2 f3 = .segment p0 p1 := by cases f2 <;> cases f3 <;> rfl
    exact ⟨p0, p1, this, e0 ▸ onSeg_left _ _⟩
  · obtain ⟨o, d, hd', s, c, e, e0, e1, eq, e2, e3⟩ := coords hd ht h1 h2
    subst e0 e1 eq e2 e3
    obtain ⟨a, b, hab, hs⟩ := table_line (o := o) (d := d) s c e (btw_of_onSeg hd' h1) (btw_of_onSeg hd' h2) f0 f1 f2 f3
      (fun h => g0 (onSeg_at h)) (fun h => g1 (onSeg_at h)) (fun h => g2 (onSeg_at h)) (fun h => g3 (onSeg_at h))
    exact ⟨_, _, hab, onSeg_at hs⟩

/-! ## The properties -/

theorem allclose_zero {rtol atol a : K} : allclose rtol atol a 0 = true ↔ |a| ≤ atol := by
  simp [allclose]

theorem allclose_self {rtol atol a : K} (hr : 0 ≤ rtol) (ha : 0 ≤ atol) : allclose rtol atol a a = true := by
  simp only [allclose, sub_self, abs_zero, decide_eq_true_eq]
  exact add_nonneg ha (mul_nonneg hr (abs_nonneg _))

/-- Parallel branch. -/
theorem inter_parallel {sq : K → K} {rtol atol : K} {p0 p1 p2 p3 : Pt K} (h : |turn p0 p1 p2 p3| ≤ atol) :
    intersection sq rtol atol p0 p1 p2 p3 =
      if |(p3.x - p2.x) * (p0.y - p2.y) - (p3.y - p2.y) * (p0.x - p2.x)| ≤ atol ∧
          |(p2.x - p0.x) * (p1.y - p0.y) - (p2.y - p0.y) * (p1.x - p0.x)| ≤ atol then
        collinear p0 p1 p2 p3 (pointOnLine sq rtol atol p0 p2 p3) (pointOnLine sq rtol atol p1 p2 p3)
          (pointOnLine sq rtol atol p2 p0 p1) (pointOnLine sq rtol atol p3 p0 p1)
      else .none4 := by
  have e : (p3.y - p2.y) * (p1.x - p0.x) - (p3.x - p2.x) * (p1.y - p0.y) = turn p0 p1 p2 p3 := by unfold turn; ring
  unfold intersection
  simp only [e, allclose_zero, h, if_true, Bool.and_eq_true]

/-- Crossing branch: the parameters of the intersection point of the two lines. -/
theorem inter_cross {sq : K → K} {rtol atol : K} (hr : 0 ≤ rtol) (ha : 0 ≤ atol) {p0 p1 p2 p3 : Pt K}
    (h : atol < |turn p0 p1 p2 p3|) :
    ∃ v0 v1 : K, (p0.x + v0 * (p1.x - p0.x) = p2.x + v1 * (p3.x - p2.x) ∧
        p0.y + v0 * (p1.y - p0.y) = p2.y + v1 * (p3.y - p2.y)) ∧
      (∀ w0 w1 : K, p0.x + w0 * (p1.x - p0.x) = p2.x + w1 * (p3.x - p2.x) →
        p0.y + w0 * (p1.y - p0.y) = p2.y + w1 * (p3.y - p2.y) → w0 = v0 ∧ w1 = v1) ∧
      intersection sq rtol atol p0 p1 p2 p3 = if 0 ≤ v0 ∧ v0 ≤ 1 ∧ 0 ≤ v1 ∧ v1 ≤ 1 then
        .point ⟨p0.x + v0 * (p1.x - p0.x), p0.y + v0 * (p1.y - p0.y)⟩ else .none0 := by
  have hd : turn p0 p1 p2 p3 ≠ 0 := by
    intro h0
    rw [h0, abs_zero] at h
    linarith
  have e : (p3.y - p2.y) * (p1.x - p0.x) - (p3.x - p2.x) * (p1.y - p0.y) = turn p0 p1 p2 p3 := by unfold turn; ring
  obtain ⟨v0, hv0⟩ : ∃ v, v = ((p3.x - p2.x) * (p0.y - p2.y) - (p3.y - p2.y) * (p0.x - p2.x)) / turn p0 p1 p2 p3 := ⟨_, rfl⟩
  obtain ⟨v1, hv1⟩ : ∃ v, v = ((p2.x - p0.x) * (p1.y - p0.y) - (p2.y - p0.y) * (p1.x - p0.x)) / turn p0 p1 p2 p3 := ⟨_, rfl⟩
  have k0 : v0 * turn p0 p1 p2 p3 = (p3.x - p2.x) * (p0.y - p2.y) - (p3.y - p2.y) * (p0.x - p2.x) := by
    rw [hv0, div_mul_cancel₀ _ hd]
  have k1 : v1 * turn p0 p1 p2 p3 = (p2.x - p0.x) * (p1.y - p0.y) - (p2.y - p0.y) * (p1.x - p0.x) := by
    rw [hv1, div_mul_cancel₀ _ hd]
  have ex : p0.x + v0 * (p1.x - p0.x) = p2.x + v1 * (p3.x - p2.x) := by
    apply mul_right_cancel₀ hd
    have e1 : (p0.x + v0 * (p1.x - p0.x)) * turn p0 p1 p2 p3 = p0.x * turn p0 p1 p2 p3 + (v0 * turn p0 p1 p2 p3) * (p1.x - p0.x) := by ring
    have e2 : (p2.x + v1 * (p3.x - p2.x)) * turn p0 p1 p2 p3 = p2.x * turn p0 p1 p2 p3 + (v1 * turn p0 p1 p2 p3) * (p3.x - p2.x) := by ring
    rw [e1, e2, k0, k1]
    unfold turn
    ring
  have ey : p0.y + v0 * (p1.y - p0.y) = p2.y + v1 * (p3.y - p2.y) := by
    apply mul_right_cancel₀ hd
    have e1 : (p0.y + v0 * (p1.y - p0.y)) * turn p0 p1 p2 p3 = p0.y * turn p0 p1 p2 p3 + (v0 * turn p0 p1 p2 p3) * (p1.y - p0.y) := by ring
    have e2 : (p2.y + v1 * (p3.y - p2.y)) * turn p0 p1 p2 p3 = p2.y * turn p0 p1 p2 p3 + (v1 * turn p0 p1 p2 p3) * (p3.y - p2.y) := by ring
    rw [e1, e2, k0, k1]
    unfold turn
    ring
  refine ⟨v0, v1, ⟨ex, ey⟩, ?_, ?_⟩
  · intro w0 w1 hx hy
    constructor
    · apply mul_right_cancel₀ hd
      rw [k0]
      unfold turn
      linear_combination (p3.y - p2.y) * hx - (p3.x - p2.x) * hy
    · apply mul_right_cancel₀ hd
      rw [k1]
      unfold turn
      linear_combination (p1.y - p0.y) * hx - (p1.x - p0.x) * hy
  · have hn : allclose rtol atol (turn p0 p1 p2 p3) 0 = false := by
      rw [← Bool.not_eq_true, allclose_zero]
      exact not_le.mpr h
    unfold intersection
    simp only [e, hn, Bool.false_eq_true, if_false, ← hv0, ← hv1, ← ex, ← ey, allclose_self hr ha, Bool.not_true]

theorem table_not_point {p0 p1 p2 p3 p : Pt K} (f0 f1 f2 f3 : Bool) : collinear p0 p1 p2 p3 f0 f1 f2 f3 ≠ .point p := by
  cases f0 <;> cases f1 <;> cases f2 <;> cases f3 <;> simp [collinear]

theorem table_not_none0 {p0 p1 p2 p3 : Pt K} (f0 f1 f2 f3 : Bool) : collinear p0 p1 p2 p3 f0 f1 f2 f3 ≠ .none0 := by
  cases f0 <;> cases f1 <;> cases f2 <;> cases f3 <;> simp [collinear]

theorem table_not_assertion {p0 p1 p2 p3 : Pt K} (f0 f1 f2 f3 : Bool) : collinear p0 p1 p2 p3 f0 f1 f2 f3 ≠ .assertion := by
  cases f0 <;> cases f1 <;> cases f2 <;> cases f3 <;> simp [collinear]

/-- **C20.** A reported intersection point lies on both segments and is their only common point; whatever the tolerances. -/
theorem C20_point (sq : K → K) (rtol atol : K) (hr : 0 ≤ rtol) (ha : 0 ≤ atol) (p0 p1 p2 p3 p : Pt K)
    (h : intersection sq rtol atol p0 p1 p2 p3 = .point p) :
    OnSeg p p0 p1 ∧ OnSeg p p2 p3 ∧ ∀ q, OnSeg q p0 p1 → OnSeg q p2 p3 → q = p := by
  by_cases hp : |turn p0 p1 p2 p3| ≤ atol
  · rw [inter_parallel hp] at h
    split_ifs at h
    exact absurd h (table_not_point _ _ _ _)
  · obtain ⟨v0, v1, ⟨ex, ey⟩, hu, hi⟩ := inter_cross (sq := sq) hr ha (not_le.mp hp)
    rw [hi] at h
    split_ifs at h with hv
    simp only [Inter.point.injEq] at h
    subst h
    refine ⟨⟨v0, hv.1, hv.2.1, rfl, rfl⟩, ⟨v1, hv.2.2.1, hv.2.2.2, ex, ey⟩, ?_⟩
    rintro ⟨qx, qy⟩ ⟨w0, -, -, hx0, hy0⟩ ⟨w1, -, -, hx1, hy1⟩
    simp only at hx0 hy0 hx1 hy1
    obtain ⟨rfl, rfl⟩ := hu w0 w1 (hx0 ▸ hx1) (hy0 ▸ hy1)
    rw [hx0, hy0]

/-- **C20.** If the segments have a common point, it is reported: as the intersection point, or inside the reported common
segment. So every answer "no intersection" (status 0, 3 or 4) and every exception means that there is no common point. The
segments have to be exactly parallel, or their cross product has to exceed the tolerance `atol`. -/
theorem C20_common_points_found (sq : K → K) (hs : IsSqrt sq) (rtol atol : K) (hr : 0 ≤ rtol) (ha : 0 ≤ atol)
    (p0 p1 p2 p3 q : Pt K) (ht : turn p0 p1 p2 p3 = 0 ∨ atol < |turn p0 p1 p2 p3|) (h1 : OnSeg q p0 p1) (h2 : OnSeg q p2 p3) :
    intersection sq rtol atol p0 p1 p2 p3 = .point q ∨
      ∃ a b, intersection sq rtol atol p0 p1 p2 p3 = .segment a b ∧ OnSeg q a b := by
  rcases ht with ht | ht
  · right
    have hz : |turn p0 p1 p2 p3| ≤ atol := by rw [ht, abs_zero]; exact ha
    have key := table_cover ht h1 h2 _ _ _ _ (fun h => pointOnLine_of_onSeg hs hr ha h) (fun h => pointOnLine_of_onSeg hs hr ha h)
      (fun h => pointOnLine_of_onSeg hs hr ha h) (fun h => pointOnLine_of_onSeg hs hr ha h)
    rw [inter_parallel hz, if_pos]
    · exact key
    · obtain ⟨s, -, -, sx, sy⟩ := h1
      obtain ⟨t, -, -, tx, ty⟩ := h2
      unfold turn at ht
      have u0 : (p3.x - p2.x) * (p0.y - p2.y) - (p3.y - p2.y) * (p0.x - p2.x) = 0 := by
        linear_combination s * ht + (p3.y - p2.y) * (sx - tx) - (p3.x - p2.x) * (sy - ty)
      have u1 : (p2.x - p0.x) * (p1.y - p0.y) - (p2.y - p0.y) * (p1.x - p0.x) = 0 := by
        linear_combination t * ht + (p1.y - p0.y) * (sx - tx) - (p1.x - p0.x) * (sy - ty)
      rw [u0, u1, abs_zero]
      exact ⟨ha, ha⟩
  · left
    obtain ⟨v0, v1, ⟨ex, ey⟩, hu, hi⟩ := inter_cross (sq := sq) hr ha ht
    obtain ⟨s, s0, s1, sx, sy⟩ := h1
    obtain ⟨t, t0, t1, tx, ty⟩ := h2
    obtain ⟨rfl, rfl⟩ := hu s t (sx ▸ tx) (sy ▸ ty)
    rw [hi, if_pos ⟨s0, s1, t0, t1⟩, ← sx, ← sy]

theorem table_segment {p0 p1 p2 p3 a b : Pt K} (f0 f1 f2 f3 : Bool) (h : collinear p0 p1 p2 p3 f0 f1 f2 f3 = .segment a b) :
    (∀ v, v = a ∨ v = b → (v = p0 ∧ f0 = true) ∨ (v = p1 ∧ f1 = true) ∨ (v = p2 ∧ f2 = true) ∨ (v = p3 ∧ f3 = true)) := by
  cases f0 <;> cases f1 <;> cases f2 <;> cases f3 <;> simp only [collinear, Inter.segment.injEq, reduceCtorEq] at h <;>
    obtain ⟨rfl, rfl⟩ := h <;> rintro v (rfl | rfl) <;> simp

/-- **C20.** The end points of a reported common segment are end points of the given segments and lie on both segments, up to the
tolerance of the collinearity test: `rtol` times the length of the segment, and `2e-15`. If the given segments lie exactly on
one line only the latter remains. -/
theorem C20_segment (sq : K → K) (hs : IsSqrt sq) (rtol atol : K) (p0 p1 p2 p3 a b : Pt K)
    (h : intersection sq rtol atol p0 p1 p2 p3 = .segment a b) (v : Pt K) (hv : v = a ∨ v = b) :
    (v = p0 ∨ v = p1 ∨ v = p2 ∨ v = p3) ∧
      Within (rtol * rtol * len2 p0 p1 + margin * margin) v p0 p1 ∧
      Within (rtol * rtol * len2 p2 p3 + margin * margin) v p2 p3 ∧
      (turn p0 p1 p2 p3 = 0 → turn p0 p1 p0 p2 = 0 → turn p2 p3 p2 p0 = 0 → Near margin v p0 p1 ∧ Near margin v p2 p3) := by
  have hc : ∃ f0 f1 f2 f3, f0 = pointOnLine sq rtol atol p0 p2 p3 ∧ f1 = pointOnLine sq rtol atol p1 p2 p3 ∧
      f2 = pointOnLine sq rtol atol p2 p0 p1 ∧ f3 = pointOnLine sq rtol atol p3 p0 p1 ∧
      collinear p0 p1 p2 p3 f0 f1 f2 f3 = .segment a b := by
    refine ⟨_, _, _, _, rfl, rfl, rfl, rfl, ?_⟩
    unfold intersection at h
    simp only at h
    split_ifs at h
    exact h
  obtain ⟨f0, f1, f2, f3, e0, e1, e2, e3, hc⟩ := hc
  have pos : ∀ a b : Pt K, 0 ≤ rtol * rtol * len2 a b + margin * margin := by
    intro a b
    unfold len2
    have := mul_nonneg (mul_self_nonneg rtol) (add_nonneg (mul_self_nonneg (b.x - a.x)) (mul_self_nonneg (b.y - a.y)))
    have := mul_self_nonneg (margin : K)
    linarith
  have on : ∀ v a b : Pt K, OnSeg v a b → Within (rtol * rtol * len2 a b + margin * margin) v a b :=
    fun v a b hv => ⟨v, hv, by simpa using pos a b⟩
  have acc : ∀ v a b : Pt K, true = pointOnLine sq rtol atol v a b → Within (rtol * rtol * len2 a b + margin * margin) v a b :=
    fun v a b hv => near_of_pointOnLine_tol hs hv.symm
  rcases table_segment f0 f1 f2 f3 hc v hv with ⟨rfl, hf⟩ | ⟨rfl, hf⟩ | ⟨rfl, hf⟩ | ⟨rfl, hf⟩
  · rw [hf] at e0
    refine ⟨Or.inl rfl, on _ _ _ (onSeg_left _ _), acc _ _ _ e0, fun t0 t1 t2 => ⟨(onSeg_left _ _).near _, near_of_pointOnLine' hs ?_ e0.symm⟩⟩
    unfold turn at t2; linear_combination t2
  · rw [hf] at e1
    refine ⟨Or.inr (Or.inl rfl), on _ _ _ (onSeg_right _ _), acc _ _ _ e1, fun t0 t1 t2 => ⟨(onSeg_right _ _).near _, near_of_pointOnLine' hs ?_ e1.symm⟩⟩
    unfold turn at t0 t2; linear_combination t2 - t0
  · rw [hf] at e2
    refine ⟨Or.inr (Or.inr (Or.inl rfl)), acc _ _ _ e2, on _ _ _ (onSeg_left _ _), fun t0 t1 t2 => ⟨near_of_pointOnLine' hs ?_ e2.symm, (onSeg_left _ _).near _⟩⟩
    unfold turn at t1; linear_combination t1
  · rw [hf] at e3
    refine ⟨Or.inr (Or.inr (Or.inr rfl)), acc _ _ _ e3, on _ _ _ (onSeg_right _ _), fun t0 t1 t2 => ⟨near_of_pointOnLine' hs ?_ e3.symm, (onSeg_right _ _).near _⟩⟩
    unfold turn at t0 t1; linear_combination t0 + t1

/-- Two results of the same kind: equal points, segments with the same end points or both given segments in full. -/
def Same (p0 p1 p2 p3 : Pt K) : Inter K → Inter K → Prop
  | .point p, .point q => p = q
  | .segment a b, .segment c d => (a = c ∧ b = d) ∨ (a = d ∧ b = c) ∨ (a = p0 ∧ b = p1 ∧ c = p2 ∧ d = p3)
  | r, s => r.status = s.status

/-- **C20.** Exchanging the arguments changes neither the status nor the point, and the segment at most in the order of its end
points (or, if both given segments are contained in each other within the tolerances, one of them is returned for the other). -/
theorem C20_order_of_arguments (sq : K → K) (rtol atol : K) (hr : 0 ≤ rtol) (ha : 0 ≤ atol) (p0 p1 p2 p3 : Pt K) :
    (intersection sq rtol atol p0 p1 p2 p3).status = (intersection sq rtol atol p2 p3 p0 p1).status ∧
      Same p0 p1 p2 p3 (intersection sq rtol atol p0 p1 p2 p3) (intersection sq rtol atol p2 p3 p0 p1) := by
  have e : turn p2 p3 p0 p1 = -turn p0 p1 p2 p3 := by unfold turn; ring
  by_cases hp : |turn p0 p1 p2 p3| ≤ atol
  · have hp' : |turn p2 p3 p0 p1| ≤ atol := by rw [e, abs_neg]; exact hp
    rw [inter_parallel hp, inter_parallel hp']
    have c0 : |(p3.x - p2.x) * (p0.y - p2.y) - (p3.y - p2.y) * (p0.x - p2.x)| =
        |(p0.x - p2.x) * (p3.y - p2.y) - (p0.y - p2.y) * (p3.x - p2.x)| := by rw [← abs_neg]; congr 1; ring
    have c1 : |(p2.x - p0.x) * (p1.y - p0.y) - (p2.y - p0.y) * (p1.x - p0.x)| =
        |(p1.x - p0.x) * (p2.y - p0.y) - (p1.y - p0.y) * (p2.x - p0.x)| := by rw [← abs_neg]; congr 1; ring
    rw [c0, c1]
    generalize pointOnLine sq rtol atol p0 p2 p3 = f0
    generalize pointOnLine sq rtol atol p1 p2 p3 = f1
    generalize pointOnLine sq rtol atol p2 p0 p1 = f2
    generalize pointOnLine sq rtol atol p3 p0 p1 = f3
    by_cases hu : |(p0.x - p2.x) * (p3.y - p2.y) - (p0.y - p2.y) * (p3.x - p2.x)| ≤ atol ∧
        |(p1.x - p0.x) * (p2.y - p0.y) - (p1.y - p0.y) * (p2.x - p0.x)| ≤ atol
    · rw [if_pos hu, if_pos hu.symm]
      cases f0 <;> cases f1 <;> cases f2 <;> cases f3 <;> simp [collinear, Inter.status, Same]
    · rw [if_neg hu, if_neg (fun h => hu h.symm)]
      exact ⟨rfl, rfl⟩
  · push Not at hp
    have hp' : atol < |turn p2 p3 p0 p1| := by rw [e, abs_neg]; exact hp
    obtain ⟨v0, v1, ⟨ex, ey⟩, hu, hi⟩ := inter_cross (sq := sq) hr ha hp
    obtain ⟨w1, w0, ⟨ex', ey'⟩, -, hi'⟩ := inter_cross (sq := sq) hr ha hp'
    obtain ⟨rfl, rfl⟩ := hu w0 w1 ex'.symm ey'.symm
    rw [hi, hi']
    by_cases hv : 0 ≤ w0 ∧ w0 ≤ 1 ∧ 0 ≤ w1 ∧ w1 ≤ 1
    · rw [if_pos hv, if_pos ⟨hv.2.2.1, hv.2.2.2, hv.1, hv.2.1⟩, ex, ey]
      exact ⟨rfl, rfl⟩
    · rw [if_neg hv, if_neg (fun h => hv ⟨h.2.2.1, h.2.2.2, h.1, h.2.1⟩)]
      exact ⟨rfl, rfl⟩

/-- **C20.** In exact arithmetic the sanity assertions never fail. -/
theorem C20_no_assertion (sq : K → K) (rtol atol : K) (hr : 0 ≤ rtol) (ha : 0 ≤ atol) (p0 p1 p2 p3 : Pt K) :
    intersection sq rtol atol p0 p1 p2 p3 ≠ .assertion := by
  intro h
  by_cases hp : |turn p0 p1 p2 p3| ≤ atol
  · rw [inter_parallel hp] at h
    split_ifs at h
    exact absurd h (table_not_assertion _ _ _ _)
  · obtain ⟨v0, v1, -, -, hi⟩ := inter_cross (sq := sq) hr ha (not_le.mp hp)
    rw [hi] at h
    split_ifs at h

/-- **C20.** Limits of the tolerances, with their default values `1e-5` and `1e-8`. Two segments of length `1e-5` crossing at the
origin at a right angle are reported as separate parallel segments (status 3). -/
theorem C20_tiny_crossing_missed (sq : ℚ → ℚ) :
    (∃ q : Pt ℚ, OnSeg q ⟨-1 / 10 ^ 5, 0⟩ ⟨1 / 10 ^ 5, 0⟩ ∧ OnSeg q ⟨0, -1 / 10 ^ 5⟩ ⟨0, 1 / 10 ^ 5⟩) ∧
      intersection sq (1 / 10 ^ 5) (1 / 10 ^ 8) ⟨-1 / 10 ^ 5, 0⟩ ⟨1 / 10 ^ 5, 0⟩ ⟨0, -1 / 10 ^ 5⟩ ⟨0, 1 / 10 ^ 5⟩ = .none3 := by
  refine ⟨⟨⟨0, 0⟩, ⟨1 / 2, by norm_num, by norm_num, by norm_num, by norm_num⟩,
    ⟨1 / 2, by norm_num, by norm_num, by norm_num, by norm_num⟩⟩, ?_⟩
  have f0 : pointOnLine sq (1 / 10 ^ 5) (1 / 10 ^ 8) ⟨-1 / 10 ^ 5, 0⟩ ⟨0, -1 / 10 ^ 5⟩ ⟨0, 1 / 10 ^ 5⟩ = false := by
    norm_num [pointOnLine]
  have f1 : pointOnLine sq (1 / 10 ^ 5) (1 / 10 ^ 8) ⟨1 / 10 ^ 5, 0⟩ ⟨0, -1 / 10 ^ 5⟩ ⟨0, 1 / 10 ^ 5⟩ = false := by
    norm_num [pointOnLine]
  have f2 : pointOnLine sq (1 / 10 ^ 5) (1 / 10 ^ 8) ⟨0, -1 / 10 ^ 5⟩ ⟨-1 / 10 ^ 5, 0⟩ ⟨1 / 10 ^ 5, 0⟩ = false := by
    norm_num [pointOnLine]
  have f3 : pointOnLine sq (1 / 10 ^ 5) (1 / 10 ^ 8) ⟨0, 1 / 10 ^ 5⟩ ⟨-1 / 10 ^ 5, 0⟩ ⟨1 / 10 ^ 5, 0⟩ = false := by
    norm_num [pointOnLine]
  rw [inter_parallel (by norm_num [turn]), if_pos (by norm_num), f0, f1, f2, f3]
  rfl

/-- **C20.** Two segments on one line with a gap of `5e-16` between them raise `RuntimeError` (the table has no entry for the case
that one end point is accepted on the other segment but no second one is). -/
theorem C20_tiny_gap_raises :
    intersection Real.sqrt (1 / 10 ^ 5) (1 / 10 ^ 8) ⟨0, 0⟩ ⟨1, 0⟩ ⟨1 + 5 / 10 ^ 16, 0⟩ ⟨2, 0⟩ = .error := by
  have rs : ∀ x y : ℝ, y = 0 → dist Real.sqrt x y = |x| := by
    intro x y hy; unfold dist; rw [hy, mul_zero, add_zero, Real.sqrt_mul_self_eq_abs]
  have big : (1 : ℝ) / 10 ^ 308 < 1 / 10 ^ 20 :=
    one_div_lt_one_div_of_lt (by norm_num) (pow_lt_pow_right₀ (by norm_num) (by norm_num))
  have f0 : pointOnLine Real.sqrt (1 / 10 ^ 5) (1 / 10 ^ 8) ⟨0, 0⟩ ⟨1 + 5 / 10 ^ 16, 0⟩ ⟨2, 0⟩ = false := by
    simp only [pointOnLine, Bool.and_eq_false_iff, decide_eq_false_iff_not, not_le]
    right; left
    norm_num at big ⊢
    linarith
  have f1 : pointOnLine Real.sqrt (1 / 10 ^ 5) (1 / 10 ^ 8) ⟨1, 0⟩ ⟨1 + 5 / 10 ^ 16, 0⟩ ⟨2, 0⟩ = false := by
    simp only [pointOnLine, Bool.and_eq_false_iff, decide_eq_false_iff_not, not_le]
    right; left
    norm_num at big ⊢
    linarith
  have f2 : pointOnLine Real.sqrt (1 / 10 ^ 5) (1 / 10 ^ 8) ⟨1 + 5 / 10 ^ 16, 0⟩ ⟨0, 0⟩ ⟨1, 0⟩ = true := by
    have h0 : (0 : ℝ) ≤ (10 ^ 308)⁻¹ := by positivity
    simp only [pointOnLine, rs _ _ (sub_self (0 : ℝ)), Bool.and_eq_true, decide_eq_true_eq, ge_iff_le]
    refine ⟨by norm_num, ?_, ?_⟩
    · norm_num
      linarith
    · norm_num [abs_of_pos]
  have f3 : pointOnLine Real.sqrt (1 / 10 ^ 5) (1 / 10 ^ 8) ⟨2, 0⟩ ⟨0, 0⟩ ⟨1, 0⟩ = false := by
    simp only [pointOnLine, rs _ _ (sub_self (0 : ℝ)), Bool.and_eq_false_iff, decide_eq_false_iff_not, not_le]
    right; right
    norm_num
  rw [inter_parallel (by norm_num [turn]), if_pos (by norm_num), f0, f1, f2, f3]
  rfl

/-! ## The hypotheses can be met -/

/-- Crossing diagonals of a square, with the default tolerances. -/
example : intersection Real.sqrt (1 / 10 ^ 5) (1 / 10 ^ 8) ⟨0, 0⟩ ⟨2, 2⟩ ⟨0, 2⟩ ⟨2, 0⟩ = .point ⟨1, 1⟩ := by
  have h := C20_common_points_found Real.sqrt isSqrt_real (1 / 10 ^ 5) (1 / 10 ^ 8) (by norm_num) (by norm_num)
    ⟨0, 0⟩ ⟨2, 2⟩ ⟨0, 2⟩ ⟨2, 0⟩ ⟨1, 1⟩ (Or.inr (by norm_num [turn]))
    ⟨1 / 2, by norm_num, by norm_num, by norm_num, by norm_num⟩ ⟨1 / 2, by norm_num, by norm_num, by norm_num, by norm_num⟩
  rcases h with h | ⟨a, b, h, -⟩
  · exact h
  · exfalso
    obtain ⟨v0, v1, -, -, hi⟩ := inter_cross (sq := Real.sqrt) (rtol := 1 / 10 ^ 5) (atol := 1 / 10 ^ 8) (by norm_num)
      (by norm_num) (p0 := ⟨0, 0⟩) (p1 := ⟨2, 2⟩) (p2 := ⟨0, 2⟩) (p3 := ⟨2, 0⟩) (by norm_num [turn])
    rw [hi] at h
    split_ifs at h

/-- Overlapping segments on the diagonal share the middle part. -/
example : ∃ a b, intersection Real.sqrt (1 / 10 ^ 5) (1 / 10 ^ 8) ⟨0, 0⟩ ⟨2, 2⟩ ⟨1, 1⟩ ⟨3, 3⟩ = .segment a b ∧
    OnSeg ⟨1, 1⟩ a b := by
  have h := C20_common_points_found Real.sqrt isSqrt_real (1 / 10 ^ 5) (1 / 10 ^ 8) (by norm_num) (by norm_num)
    ⟨0, 0⟩ ⟨2, 2⟩ ⟨1, 1⟩ ⟨3, 3⟩ ⟨1, 1⟩ (Or.inl (by norm_num [turn]))
    ⟨1 / 2, by norm_num, by norm_num, by norm_num, by norm_num⟩ (onSeg_left _ _)
  rcases h with h | h
  · exfalso
    rw [inter_parallel (by norm_num [turn]), if_pos (by norm_num)] at h
    exact table_not_point _ _ _ _ h
  · exact h

end Verif.Polygon
