import Verif.Forcing.SpecWind
import Mathlib.Tactic.Linarith
import Mathlib.Tactic.Ring
import Mathlib.Tactic.FieldSimp
import Mathlib.Tactic.LinearCombination
import Mathlib.Data.List.GetD
import Mathlib.Tactic.IntervalCases

/-!
# C85: wind, air pressure and stored time series
-/

namespace Verif.Forcing

open Verif.Polygon (Pt)

theorem speed_abs (s p : ℝ) : Real.sqrt ((s * Real.cos p) ^ 2 + (s * Real.sin p) ^ 2) = |s| := by
  rw [show (s * Real.cos p) ^ 2 + (s * Real.sin p) ^ 2 = s ^ 2 * (Real.sin p ^ 2 + Real.cos p ^ 2) by ring, Real.sin_sq_add_cos_sq, mul_one, Real.sqrt_sq_eq_abs]

/-- The first `m` turns of the loop. -/
theorem assign_some (c : ℝ) (s phi : List ℝ) (u : List ℝ × List ℝ) (m : ℕ) (h1 : m ≤ s.length) (h2 : m ≤ phi.length) (h3 : m ≤ u.1.length) (h4 : m ≤ u.2.length) :
    ∃ u', assignWind c s phi m u = some u' ∧
      Added (fun k => if k < m then c * |s.getD k 0| * (velocity (s.getD k 0) (phi.getD k 0)).1 else 0) u.1 u'.1 ∧
      Added (fun k => if k < m then c * |s.getD k 0| * (velocity (s.getD k 0) (phi.getD k 0)).2 else 0) u.2 u'.2 := by
  induction m with
  | zero => exact ⟨u, rfl, ⟨rfl, fun k _ _ => by simp⟩, rfl, fun k _ _ => by simp⟩
  | succ m ih =>
    obtain ⟨⟨ux, uy⟩, e, ⟨l1, g1⟩, l2, g2⟩ := ih (by omega) (by omega) (by omega) (by omega)
    simp only at l1 l2 g1 g2
    have a1 : s[m]? = some (s.getD m 0) := by rw [List.getD_eq_getElem _ _ (by omega), List.getElem?_eq_getElem]
    have a2 : phi[m]? = some (phi.getD m 0) := by rw [List.getD_eq_getElem _ _ (by omega), List.getElem?_eq_getElem]
    have a3 : ux[m]? = some (ux[m]'(by omega)) := List.getElem?_eq_getElem _
    have a4 : uy[m]? = some (uy[m]'(by omega)) := List.getElem?_eq_getElem _
    unfold assignWind
    rw [e]
    simp only [a1, a2, a3, a4, speed_abs]
    refine ⟨_, rfl, ⟨by simp [l1], fun k hk hk' => ?_⟩, by simp [l2], fun k hk hk' => ?_⟩
    · simp only [List.getElem_modify]
      rw [g1 k hk (by omega)]
      by_cases hm : m = k
      · subst hm
        simp [velocity]
      · rw [if_neg hm]
        by_cases hk2 : k < m
        · rw [if_pos hk2, if_pos (by omega)]
        · rw [if_neg hk2, if_neg (by omega)]
    · simp only [List.getElem_modify]
      rw [g2 k hk (by omega)]
      by_cases hm : m = k
      · subst hm
        simp [velocity]
      · rw [if_neg hm]
        by_cases hk2 : k < m
        · rw [if_pos hk2, if_pos (by omega)]
        · rw [if_neg hk2, if_neg (by omega)]

/-- Too many values. -/
theorem assign_none (c : ℝ) (s phi : List ℝ) (u : List ℝ × List ℝ) (m : ℕ) (h : u.1.length < m) : assignWind c s phi m u = none := by
  induction m with
  | zero => omega
  | succ m ih =>
    unfold assignWind
    by_cases hm : u.1.length < m
    · rw [ih hm]
    · cases e : assignWind c s phi m u with
      | none => rfl
      | some u' =>
        obtain ⟨ux, uy⟩ := u'
        have hl : ∀ m u', assignWind c s phi m u = some u' → u'.1.length = u.1.length := by
          intro m
          induction m with
          | zero => intro u' hu; cases hu; rfl
          | succ m ih2 =>
            intro u' hu
            unfold assignWind at hu
            cases e2 : assignWind c s phi m u with
            | none => rw [e2] at hu; cases hu
            | some w =>
              rw [e2] at hu
              simp only at hu
              split at hu
              · cases hu
                simp [ih2 w e2]
              · cases hu
        have := hl m _ e
        simp only at this ⊢
        have : ux[m]? = none := List.getElem?_eq_none (by omega)
        rw [this]
        split
        · simp_all
        · rfl

theorem check_values {F G : Field} (h : checkForcefield F = some G) : G = F := by
  unfold checkForcefield at h
  split at h
  · cases h; rfl
  · split_ifs at h
    cases h
    rfl

/-- **C85.** A wind with one value of speed and direction per triangle adds to the momentum of each triangle the vector wind times its speed times
`eta_w*rho_a/rho_w`. -/
theorem C85_wind {s phi : Field} (hs : checkForcefield s = some s) (hp : checkForcefield phi = some phi) {t : ℝ} {cs : List (Pt ℝ)} {u : List ℝ × List ℝ}
    (h1 : u.1.length = cs.length) (h2 : u.2.length = cs.length) (h3 : (s.values t (cs.map Pt.x) (cs.map Pt.y)).length = cs.length)
    (h4 : (phi.values t (cs.map Pt.x) (cs.map Pt.y)).length = cs.length) :
    ∃ u', wind s phi t cs u = some u' ∧
      Added (fun k => 3 / 1000 * (12 / 10000) / 1023 * |(s.values t (cs.map Pt.x) (cs.map Pt.y)).getD k 0| *
        (velocity ((s.values t (cs.map Pt.x) (cs.map Pt.y)).getD k 0) ((phi.values t (cs.map Pt.x) (cs.map Pt.y)).getD k 0)).1) u.1 u'.1 ∧
      Added (fun k => 3 / 1000 * (12 / 10000) / 1023 * |(s.values t (cs.map Pt.x) (cs.map Pt.y)).getD k 0| *
        (velocity ((s.values t (cs.map Pt.x) (cs.map Pt.y)).getD k 0) ((phi.values t (cs.map Pt.x) (cs.map Pt.y)).getD k 0)).2) u.2 u'.2 := by
  unfold wind
  rw [hs, hp]
  simp only
  obtain ⟨u', e, ⟨l1, g1⟩, l2, g2⟩ := assign_some windConst (s.values t (cs.map Pt.x) (cs.map Pt.y)) (phi.values t (cs.map Pt.x) (cs.map Pt.y)) u _ le_rfl
    (by omega) (by omega) (by omega)
  refine ⟨u', e, ⟨l1, fun k hk hk' => ?_⟩, l2, fun k hk hk' => ?_⟩
  · rw [g1 k hk hk']
    simp only
    rw [if_pos (by omega)]
    rfl
  · rw [g2 k hk hk']
    simp only
    rw [if_pos (by omega)]
    rfl

/-- **C85.** Numbers are accepted and give the same wind everywhere. -/
theorem C85_constant (s phi t : ℝ) {cs : List (Pt ℝ)} {u : List ℝ × List ℝ} (h1 : u.1.length = cs.length) (h2 : u.2.length = cs.length) :
    ∃ u', wind (.num s) (.num phi) t cs u = some u' ∧ Added (fun _ => 3 / 1000 * (12 / 10000) / 1023 * |s| * (velocity s phi).1) u.1 u'.1 ∧
      Added (fun _ => 3 / 1000 * (12 / 10000) / 1023 * |s| * (velocity s phi).2) u.2 u'.2 := by
  obtain ⟨u', e, ⟨l1, g1⟩, l2, g2⟩ := C85_wind (s := .num s) (phi := .num phi) rfl rfl (t := t) h1 h2 (by simp [Field.values]) (by simp [Field.values])
  refine ⟨u', e, ⟨l1, fun k hk hk' => ?_⟩, l2, fun k hk hk' => ?_⟩
  · have hk2 : k < cs.length := by omega
    rw [g1 k hk hk']
    simp [Field.values, hk2]
  · have hk2 : k < cs.length := by omega
    rw [g2 k hk hk']
    simp [Field.values, hk2]

/-- **C85.** The stress of a wind has the magnitude `eta_w*rho_a/rho_w` times the square of the speed; the directions `phi` and `phi + 360` are the same; wind from the
opposite side, or of negative speed, has the opposite effect. -/
theorem C85_stress (s phi : ℝ) :
    ((|s| * (velocity s phi).1) ^ 2 + (|s| * (velocity s phi).2) ^ 2 = (s ^ 2) ^ 2) ∧ velocity s (phi + 360) = velocity s phi ∧
      velocity s (phi + 180) = (-(velocity s phi).1, -(velocity s phi).2) ∧ velocity (-s) phi = (-(velocity s phi).1, -(velocity s phi).2) := by
  unfold velocity
  refine ⟨?_, ?_, ?_, ?_⟩
  · have h := Real.sin_sq_add_cos_sq (phi * Real.pi / 180)
    have h2 : |s| ^ 2 = s ^ 2 := sq_abs s
    simp only
    calc (|s| * (s * Real.cos (phi * Real.pi / 180))) ^ 2 + (|s| * (s * Real.sin (phi * Real.pi / 180))) ^ 2
        = |s| ^ 2 * s ^ 2 * (Real.sin (phi * Real.pi / 180) ^ 2 + Real.cos (phi * Real.pi / 180) ^ 2) := by ring
      _ = _ := by rw [h, h2]; ring
  · rw [show (phi + 360) * Real.pi / 180 = phi * Real.pi / 180 + 2 * Real.pi by ring, Real.cos_add_two_pi, Real.sin_add_two_pi]
  · rw [show (phi + 180) * Real.pi / 180 = phi * Real.pi / 180 + Real.pi by ring, Real.cos_add_pi, Real.sin_add_pi]
    simp
  · simp

/-- **C85.** Speed and direction given as functions of time and place act at each triangle with their values at its centroid. -/
theorem C85_place (f g : ℝ → ℝ → ℝ → ℝ) (t : ℝ) {cs : List (Pt ℝ)} {u : List ℝ × List ℝ} (h1 : u.1.length = cs.length) (h2 : u.2.length = cs.length) :
    ∃ u', wind (.fn fun t xs ys => List.zipWith (f t) xs ys) (.fn fun t xs ys => List.zipWith (g t) xs ys) t cs u = some u' ∧
      ∀ (k : ℕ) (c : Pt ℝ) (a b : ℝ), cs[k]? = some c → u.1[k]? = some a → u.2[k]? = some b →
        u'.1[k]? = some (a + 3 / 1000 * (12 / 10000) / 1023 * |f t c.x c.y| * (velocity (f t c.x c.y) (g t c.x c.y)).1) ∧
        u'.2[k]? = some (b + 3 / 1000 * (12 / 10000) / 1023 * |f t c.x c.y| * (velocity (f t c.x c.y) (g t c.x c.y)).2) := by
  have hz : ∀ (F : ℝ → ℝ → ℝ → ℝ) (k : ℕ) (c : Pt ℝ), cs[k]? = some c →
      (Field.values (.fn fun t xs ys => List.zipWith (F t) xs ys) t (cs.map Pt.x) (cs.map Pt.y)).getD k 0 = F t c.x c.y := by
    intro F k c hc
    simp [Field.values, List.getD_eq_getElem?_getD, hc]
  obtain ⟨u', e, ⟨l1, g1⟩, l2, g2⟩ := C85_wind (s := .fn fun t xs ys => List.zipWith (f t) xs ys) (phi := .fn fun t xs ys => List.zipWith (g t) xs ys)
    (by simp [checkForcefield]) (by simp [checkForcefield]) (t := t) h1 h2 (by simp [Field.values]) (by simp [Field.values])
  refine ⟨u', e, fun k c a b hc ha hb => ?_⟩
  have hk1 : k < u.1.length := by
    by_contra hn; rw [List.getElem?_eq_none (by omega)] at ha; simp at ha
  have hk2 : k < u.2.length := by omega
  rw [List.getElem?_eq_getElem hk1, Option.some.injEq] at ha
  rw [List.getElem?_eq_getElem hk2, Option.some.injEq] at hb
  have e1 := g1 k hk1 (by omega)
  have e2 := g2 k hk2 (by omega)
  beta_reduce at e1 e2
  rw [hz f k c hc, hz g k c hc] at e1 e2
  rw [List.getElem?_eq_getElem (by omega), List.getElem?_eq_getElem (by omega), e1, e2, ha, hb]
  exact ⟨rfl, rfl⟩

/-- **C85.** A function that does not return three values for three points is refused, as speed or as direction. -/
theorem C85_refused (f : ℝ → List ℝ → List ℝ → List ℝ) (hf : (f 1 [1, 1, 1] [1, 1, 1]).length ≠ 3) (F : Field) (t : ℝ) (cs : List (Pt ℝ)) (u : List ℝ × List ℝ) :
    wind (.fn f) F t cs u = none ∧ wind F (.fn f) t cs u = none := by
  have : checkForcefield (.fn f) = none := if_neg hf
  unfold wind
  rw [this]
  refine ⟨rfl, ?_⟩
  cases checkForcefield F <;> rfl

/-- **C85, a limit of the code.** A function is accepted if it returns three values for three points. One that returns three values whatever the points is
accepted; on a larger mesh only the first three triangles then feel the wind, on a smaller one the run fails. -/
theorem C85_three (v phi t : ℝ) {cs : List (Pt ℝ)} {u : List ℝ × List ℝ} (h1 : u.1.length = cs.length) (h2 : u.2.length = cs.length) :
    (3 ≤ cs.length → ∃ u', wind (.fn fun _ _ _ => [v, v, v]) (.num phi) t cs u = some u' ∧
      Added (fun k => if k < 3 then 3 / 1000 * (12 / 10000) / 1023 * |v| * (velocity v phi).1 else 0) u.1 u'.1 ∧
      Added (fun k => if k < 3 then 3 / 1000 * (12 / 10000) / 1023 * |v| * (velocity v phi).2 else 0) u.2 u'.2) ∧
    (cs.length < 3 → wind (.fn fun _ _ _ => [v, v, v]) (.num phi) t cs u = none) := by
  constructor
  · intro h3
    unfold wind
    simp only [checkForcefield, List.length_cons, List.length_nil, if_true]
    obtain ⟨u', e, ⟨l1, g1⟩, l2, g2⟩ := assign_some windConst [v, v, v] (Field.values (.num phi) t (cs.map Pt.x) (cs.map Pt.y)) u 3 le_rfl
      (by simpa [Field.values] using h3) (by omega) (by omega)
    have hv : ∀ k, k < 3 → [v, v, v].getD k 0 = v := by
      intro k hk
      have : k = 0 ∨ k = 1 ∨ k = 2 := by omega
      rcases this with rfl | rfl | rfl <;> rfl
    have hq : ∀ k, k < 3 → (Field.values (.num phi) t (cs.map Pt.x) (cs.map Pt.y)).getD k 0 = phi := by
      intro k hk
      have hk2 : k < cs.length := by omega
      simp [Field.values, hk2]
    refine ⟨u', e, ⟨l1, fun k hk hk' => ?_⟩, l2, fun k hk hk' => ?_⟩
    · rw [g1 k hk hk']
      by_cases hk3 : k < 3
      · simp only [if_pos hk3, hv k hk3, hq k hk3, windConst]
      · simp only [if_neg hk3]
    · rw [g2 k hk hk']
      by_cases hk3 : k < 3
      · simp only [if_pos hk3, hv k hk3, hq k hk3, windConst]
      · simp only [if_neg hk3]
  · intro h3
    unfold wind
    simp only [checkForcefield, List.length_cons, List.length_nil, if_true]
    exact assign_none _ _ _ _ _ (by show u.1.length < 3; omega)

theorem grad_linear (p0 p1 p2 : Pt ℝ) (hd : (p2.y - p0.y) * (p1.x - p0.x) - (p1.y - p0.y) * (p2.x - p0.x) ≠ 0) (a b c : ℝ) :
    Quantity.gradient p0.x p0.y p1.x p1.y p2.x p2.y (a + b * p0.x + c * p0.y) (a + b * p1.x + c * p1.y) (a + b * p2.x + c * p2.y) = (b, c) := by
  unfold Quantity.gradient
  refine Prod.ext ?_ ?_ <;> simp only <;> rw [div_eq_iff hd] <;> ring

/-- **C85.** A pressure that is linear on a triangle, with gradient `(b, c)`, adds depth times gradient over density to its momentum. A constant pressure adds nothing. -/
theorem C85_pressure (p0 p1 p2 : Pt ℝ) (hd : (p2.y - p0.y) * (p1.x - p0.x) - (p1.y - p0.y) * (p2.x - p0.x) ≠ 0) (a b c h : ℝ) (u : ℝ × ℝ) :
    assignPressure p0 p1 p2 (a + b * p0.x + c * p0.y) (a + b * p1.x + c * p1.y) (a + b * p2.x + c * p2.y) h u = (u.1 + h * b / 1023, u.2 + h * c / 1023) := by
  unfold assignPressure
  rw [grad_linear p0 p1 p2 hd]

/-- **C85, a limit of the code.** The sign is that of a push towards high pressure. Water that stands lower where the pressure is higher, by just the weight of the
air, should be at rest; the pressure term and gravity add up to twice the push of gravity. Water that stands *higher* under high pressure is kept at rest. -/
theorem C85_sign (p0 p1 p2 : Pt ℝ) (hd : (p2.y - p0.y) * (p1.x - p0.x) - (p1.y - p0.y) * (p2.x - p0.x) ≠ 0) (a b c h g : ℝ) (hg : g ≠ 0) (w : Pt ℝ → ℝ) (w0 : ℝ) :
    ((∀ q, w q = w0 - (a + b * q.x + c * q.y) / (1023 * g)) →
      assignPressure p0 p1 p2 (a + b * p0.x + c * p0.y) (a + b * p1.x + c * p1.y) (a + b * p2.x + c * p2.y) h
        (-g * h * (Quantity.gradient p0.x p0.y p1.x p1.y p2.x p2.y (w p0) (w p1) (w p2)).1, -g * h * (Quantity.gradient p0.x p0.y p1.x p1.y p2.x p2.y (w p0) (w p1) (w p2)).2) =
      (2 * (h * b / 1023), 2 * (h * c / 1023))) ∧
    ((∀ q, w q = w0 + (a + b * q.x + c * q.y) / (1023 * g)) →
      assignPressure p0 p1 p2 (a + b * p0.x + c * p0.y) (a + b * p1.x + c * p1.y) (a + b * p2.x + c * p2.y) h
        (-g * h * (Quantity.gradient p0.x p0.y p1.x p1.y p2.x p2.y (w p0) (w p1) (w p2)).1, -g * h * (Quantity.gradient p0.x p0.y p1.x p1.y p2.x p2.y (w p0) (w p1) (w p2)).2) =
      (0, 0)) := by
  constructor
  · intro hw
    have hw2 : ∀ q, w q = (w0 - a / (1023 * g)) + (-b / (1023 * g)) * q.x + (-c / (1023 * g)) * q.y := fun q => by rw [hw q]; ring
    rw [C85_pressure p0 p1 p2 hd, hw2 p0, hw2 p1, hw2 p2, grad_linear p0 p1 p2 hd]
    refine Prod.ext ?_ ?_ <;> simp only <;> field_simp <;> ring
  · intro hw
    have hw2 : ∀ q, w q = (w0 + a / (1023 * g)) + (b / (1023 * g)) * q.x + (c / (1023 * g)) * q.y := fun q => by rw [hw q]; ring
    rw [C85_pressure p0 p1 p2 hd, hw2 p0, hw2 p1, hw2 p2, grad_linear p0 p1 p2 hd]
    refine Prod.ext ?_ ?_ <;> simp only <;> field_simp <;> ring

/-! ## Stored series -/

theorem firstIndex_cases (start : ℝ) (l : List ℝ) (i j : ℕ) : firstIndex start l i j = j ∨ ∃ m, ∃ h : m < l.length, firstIndex start l i j = i + m ∧ l[m] < start := by
  induction l generalizing i j with
  | nil => exact Or.inl rfl
  | cons x l ih =>
    unfold firstIndex
    by_cases hx : x < start
    · rw [if_pos hx]
      rcases ih (i + 1) i with h | ⟨m, hm, h, h2⟩
      · exact Or.inr ⟨0, by simp, by rw [h]; rfl, hx⟩
      · exact Or.inr ⟨m + 1, by simpa using hm, by rw [h]; omega, h2⟩
    · rw [if_neg hx]
      exact Or.inl rfl

/-- The state is right for times from `t0`. -/
structure Good (ft : List ℝ) (f : ℝ → ℕ → ℝ) (t0 : ℝ) (s : Stored) : Prop where
  lt : s.index + 1 < ft.length
  prev : s.prev = f ft[s.index]
  next : s.next = f ft[s.index + 1]
  le : ft[s.index] ≤ t0

theorem open_good {ft : List ℝ} {f : ℝ → ℕ → ℝ} {start : ℝ} {s : Stored} (h : openSeries ft f start = some s) : Good ft f start s := by
  unfold openSeries at h
  split at h
  · rename_i a z y h0 h1 h2
    split_ifs at h with g1 g2 g3 g4
    simp only at h
    split at h
    · rename_i p q hp hq
      cases h
      obtain ⟨k1, k2⟩ := List.getElem?_eq_some_iff.mp hp
      obtain ⟨k3, k4⟩ := List.getElem?_eq_some_iff.mp hq
      refine ⟨k3, by simp only [k2], by simp only [k4], ?_⟩
      simp only [k2]
      rcases firstIndex_cases start ft 0 0 with e | ⟨m, hm, e, hlt⟩
      · obtain ⟨k5, k6⟩ := List.getElem?_eq_some_iff.mp h0
        rw [e, h0] at hp
        cases hp
        exact not_lt.mp g2
      · have : ft[0 + m]'(by omega) = p := by
          rw [← k2]
          simp only [e]
        rw [← this]
        simp only [zero_add]
        exact hlt.le
    · cases h
  · cases h

/-- **C85.** A series is accepted exactly if it has two times or more, the start is between the first and the last time, and the start is not strictly within the last
interval. -/
theorem C85_opens (ft : List ℝ) (f : ℝ → ℕ → ℝ) (start : ℝ) :
    (openSeries ft f start).isSome ↔ ∃ h : 2 ≤ ft.length, ft[0] ≤ start ∧ start ≤ ft[ft.length - 1] ∧ ¬ (ft[ft.length - 2] < start ∧ start < ft[ft.length - 1]) := by
  by_cases hl : 2 ≤ ft.length
  · have e0 : ft[0]? = some ft[0] := List.getElem?_eq_getElem _
    have e1 : ft[ft.length - 1]? = some ft[ft.length - 1] := List.getElem?_eq_getElem _
    have e2 : ft[ft.length - 2]? = some ft[ft.length - 2] := List.getElem?_eq_getElem _
    unfold openSeries
    simp only [e0, e1, e2]
    rw [if_neg (by omega)]
    by_cases g2 : start < ft[0]
    · rw [if_pos g2]
      simp only [Option.isSome_none, Bool.false_eq_true, false_iff, not_exists]
      intro _ h
      linarith [h.1]
    · rw [if_neg g2]
      by_cases g3 : ft[ft.length - 1] < start
      · rw [if_pos g3]
        simp only [Option.isSome_none, Bool.false_eq_true, false_iff, not_exists]
        intro _ h
        linarith [h.2.1]
      · rw [if_neg g3]
        by_cases g4 : ft[ft.length - 2] < start ∧ start < ft[ft.length - 1]
        · rw [if_pos g4]
          simp only [Option.isSome_none, Bool.false_eq_true, false_iff, not_exists]
          intro _ h
          exact h.2.2 g4
        · rw [if_neg g4]
          have hi : firstIndex start ft 0 0 + 1 < ft.length := by
            rcases firstIndex_cases start ft 0 0 with e | ⟨m, hm, e, hlt⟩
            · rw [e]; omega
            · rw [e]
              by_contra hc
              have : m = ft.length - 1 := by omega
              subst this
              exact g3 hlt
          rw [List.getElem?_eq_getElem (by omega : firstIndex start ft 0 0 < ft.length), List.getElem?_eq_getElem hi]
          simp only [Option.isSome_some, true_iff]
          exact ⟨hl, not_lt.mp g2, not_lt.mp g3, g4⟩
  · have : openSeries ft f start = none := by
      unfold openSeries
      split
      · rw [if_pos (by omega)]
      · rfl
    rw [this]
    simp only [Option.isSome_none, Bool.false_eq_true, false_iff, not_exists]
    exact fun h => absurd h hl

theorem advance_stay {ft : List ℝ} {f : ℝ → ℕ → ℝ} {t q : ℝ} {s : Stored} (e1 : ft[s.index + 1]? = some q) (hq : ¬ q < t) : advance ft f t s = some s := by
  rw [advance]
  split
  · rename_i h; rw [e1] at h; cases h
  · rename_i q h
    rw [e1] at h
    cases h
    rw [if_neg hq]

theorem advance_step {ft : List ℝ} {f : ℝ → ℕ → ℝ} {t q r : ℝ} {s : Stored} (e1 : ft[s.index + 1]? = some q) (hq : q < t) (e2 : ft[s.index + 2]? = some r) :
    advance ft f t s = advance ft f t ⟨s.index + 1, s.next, f r⟩ := by
  rw [advance]
  split
  · rename_i h; rw [e1] at h; cases h
  · rename_i q h
    rw [e1] at h
    cases h
    rw [if_pos hq, e2]

theorem advance_good {ft : List ℝ} (f : ℝ → ℕ → ℝ) {t : ℝ} (n : ℕ) : ∀ s : Stored, ft.length - s.index ≤ n → Good ft f t s →
    (∀ hl : 0 < ft.length, ft.Pairwise (· < ·) → ft[ft.length - 1] < t → advance ft f t s = none) ∧
    (∀ hl : 0 < ft.length, t ≤ ft[ft.length - 1] → ∃ s', advance ft f t s = some s' ∧ Good ft f t s' ∧ ∀ h : s'.index + 1 < ft.length, t ≤ ft[s'.index + 1]) := by
  induction n with
  | zero =>
    intro s hs hg
    have := hg.lt
    omega
  | succ n ih =>
    intro s hs hg
    have hlt := hg.lt
    have e1 : ft[s.index + 1]? = some ft[s.index + 1] := List.getElem?_eq_getElem _
    by_cases hq : ft[s.index + 1] < t
    · by_cases h2 : s.index + 2 < ft.length
      · have e2 : ft[s.index + 2]? = some ft[s.index + 2] := List.getElem?_eq_getElem _
        have hg' : Good ft f t ⟨s.index + 1, s.next, f ft[s.index + 2]⟩ := ⟨h2, hg.next, rfl, hq.le⟩
        have hadv : advance ft f t s = advance ft f t ⟨s.index + 1, s.next, f ft[s.index + 2]⟩ := advance_step e1 hq e2
        have := ih ⟨s.index + 1, s.next, f ft[s.index + 2]⟩ (by simp only; omega) hg'
        rw [hadv]
        exact this
      · have e2 : ft[s.index + 2]? = none := List.getElem?_eq_none (by omega)
        have hadv : advance ft f t s = none := by
          rw [advance]
          split
          · rfl
          · rename_i q h
            rw [e1] at h
            cases h
            rw [if_pos hq, e2]
        refine ⟨fun _ _ _ => hadv, fun hl ht => ?_⟩
        have : s.index + 1 = ft.length - 1 := by omega
        simp only [this] at hq
        linarith
    · have hadv : advance ft f t s = some s := advance_stay e1 hq
      refine ⟨fun hl hp ht => ?_, fun hl ht => ⟨s, hadv, hg, fun _ => not_lt.mp hq⟩⟩
      exfalso
      have hq2 := not_lt.mp hq
      by_cases hi : s.index + 1 = ft.length - 1
      · simp only [hi] at hq2
        linarith
      · have := List.pairwise_iff_getElem.mp hp (s.index + 1) (ft.length - 1) hlt (by omega) (by omega)
        linarith

theorem read_good {ft : List ℝ} (f : ℝ → ℕ → ℝ) (hp : ft.Pairwise (· < ·)) {t : ℝ} {s : Stored} (hg : Good ft f t s) (hl : 0 < ft.length) :
    (ft[ft.length - 1] < t → readSeries ft f t s = none) ∧
    (t ≤ ft[ft.length - 1] → ∃ v s', readSeries ft f t s = some (v, s') ∧ Good ft f t s' ∧ ∀ i, Linear ft (fun x => f x i) t (v i)) := by
  obtain ⟨h1, h2⟩ := advance_good f _ s le_rfl hg
  unfold readSeries
  constructor
  · intro ht
    rw [h1 hl hp ht]
  · intro ht
    obtain ⟨s', e, g, hle⟩ := h2 hl ht
    have hlt := g.lt
    rw [e]
    simp only [List.getElem?_eq_getElem (by omega : s'.index < ft.length), List.getElem?_eq_getElem hlt]
    refine ⟨_, _, rfl, g, fun i => ⟨s'.index, hlt, g.le, hle hlt, ?_⟩⟩
    have hne : ft[s'.index + 1] - ft[s'.index] ≠ 0 := by
      have := List.pairwise_iff_getElem.mp hp s'.index (s'.index + 1) (by omega) hlt (by omega)
      linarith
    simp only [g.prev, g.next]
    field_simp
    ring

/-- **C85.** A series of increasing times, read at times that never decrease, gives at every point the value of the piecewise linear function through the data,
whatever the times read before; reading beyond the last time fails. -/
theorem C85_series {ft : List ℝ} (hp : ft.Pairwise (· < ·)) {f : ℝ → ℕ → ℝ} {start : ℝ} {s : Stored} (h : openSeries ft f start = some s) (hl : 0 < ft.length)
    {ts : List ℝ} (hts : (start :: ts).Pairwise (· ≤ ·)) :
    ((∀ t ∈ ts, t ≤ ft[ft.length - 1]) → ∃ vs, readAll ft f ts s = some vs ∧ vs.length = ts.length ∧
      ∀ k, (h : k < ts.length) → (h' : k < vs.length) → ∀ i, Linear ft (fun x => f x i) ts[k] (vs[k] i)) ∧
    ((∃ t ∈ ts, ft[ft.length - 1] < t) → readAll ft f ts s = none) := by
  have hg := open_good h
  clear h
  induction ts generalizing start s with
  | nil => exact ⟨fun _ => ⟨[], rfl, rfl, fun k h => by simp at h⟩, fun ⟨t, ht, _⟩ => by simp at ht⟩
  | cons t ts ih =>
    obtain ⟨k1, k2⟩ := List.pairwise_cons.mp hts
    have hgt : Good ft f t s := ⟨hg.lt, hg.prev, hg.next, hg.le.trans (k1 t (by simp))⟩
    obtain ⟨r1, r2⟩ := read_good f hp hgt hl
    constructor
    · intro hall
      obtain ⟨v, s', e, g, hv⟩ := r2 (hall t (by simp))
      obtain ⟨vs, e2, l2, hvs⟩ := (ih k2 g).1 (fun x hx => hall x (by simp [hx]))
      refine ⟨v :: vs, ?_, by simp [l2], ?_⟩
      · unfold readAll
        simp only [e, e2]
      · intro k hk hk' i
        cases k with
        | zero => exact hv i
        | succ k => exact hvs k (by simpa using hk) (by simpa using hk') i
    · rintro ⟨x, hx, hlt⟩
      unfold readAll
      by_cases ht : t ≤ ft[ft.length - 1]
      · obtain ⟨v, s', e, g, hv⟩ := r2 ht
        rcases List.mem_cons.mp hx with rfl | hx
        · linarith
        · simp only [e, (ih k2 g).2 ⟨x, hx, hlt⟩]
      · rw [r1 (not_le.mp ht)]

/-- **C85.** The piecewise linear function has one value at a time. -/
theorem C85_one_value {ft : List ℝ} (hp : ft.Pairwise (· < ·)) {f : ℝ → ℝ} {t v w : ℝ} (hv : Linear ft f t v) (hw : Linear ft f t w) : v = w := by
  have key : ∀ {j k : ℕ} (hj : j + 1 < ft.length) (hk : k + 1 < ft.length) {v w : ℝ}, j < k → ft[j] ≤ t → t ≤ ft[j + 1] → ft[k] ≤ t → t ≤ ft[k + 1] →
      (v - f ft[j]) * (ft[j + 1] - ft[j]) = (t - ft[j]) * (f ft[j + 1] - f ft[j]) →
      (w - f ft[k]) * (ft[k + 1] - ft[k]) = (t - ft[k]) * (f ft[k + 1] - f ft[k]) → v = w := by
    intro j k hj hk v w hjk a1 a2 b1 b2 e1 e2
    have hjk2 : ft[j + 1] ≤ ft[k] := by
      by_cases h : j + 1 = k
      · simp only [h]; exact le_rfl
      · exact (List.pairwise_iff_getElem.mp hp (j + 1) k hj (by omega) (by omega)).le
    have h1 : t = ft[j + 1] := le_antisymm a2 (hjk2.trans b1)
    have h2 : ft[j + 1] = ft[k] := le_antisymm hjk2 (by rw [← h1]; exact b1)
    have d1 := List.pairwise_iff_getElem.mp hp j (j + 1) (by omega) hj (by omega)
    have d2 := List.pairwise_iff_getElem.mp hp k (k + 1) (by omega) hk (by omega)
    have v1 : v = f ft[j + 1] := by
      rw [h1] at e1
      have : (v - f ft[j + 1]) * (ft[j + 1] - ft[j]) = 0 := by linear_combination e1
      rcases mul_eq_zero.mp this with h | h <;> linarith
    have w1 : w = f ft[k] := by
      rw [h1, h2] at e2
      have : (w - f ft[k]) * (ft[k + 1] - ft[k]) = 0 := by linear_combination e2
      rcases mul_eq_zero.mp this with h | h <;> linarith
    rw [v1, w1, h2]
  obtain ⟨j, hj, a1, a2, e1⟩ := hv
  obtain ⟨k, hk, b1, b2, e2⟩ := hw
  rcases lt_trichotomy j k with h | h | h
  · exact key hj hk h a1 a2 b1 b2 e1 e2
  · subst h
    have d1 := List.pairwise_iff_getElem.mp hp j (j + 1) (by omega) hj (by omega)
    have : (v - w) * (ft[j + 1] - ft[j]) = 0 := by linear_combination e1 - e2
    rcases mul_eq_zero.mp this with h | h <;> linarith
  · exact (key hk hj h b1 b2 a1 a2 e2 e1).symm

/-- **C85, a limit of the code.** Times must not go back, but a step of the third order method asks at the start, at the end and then in the middle of the step. Data
0, 0, 5, 5 at times 0, 1, 2, 3 and a step from 1/2 to 5/4: the answer in the middle, at 7/8, is −5/8 instead of 0. -/
theorem C85_back : ∃ s, openSeries [0, 1, 2, 3] (fun x _ => if x ≤ 1 then 0 else 5) (0 : ℝ) = some s ∧ ∃ vs, readAll [0, 1, 2, 3] (fun x _ => if x ≤ 1 then 0 else 5) [1 / 2, 5 / 4, 7 / 8] s = some vs ∧
    vs.map (fun v => v 0) = [0, 5 / 4, -5 / 8] ∧ ¬ Linear [0, 1, 2, 3] (fun x => if x ≤ 1 then 0 else 5) (7 / 8) (-5 / 8) := by
  refine ⟨⟨0, fun _ => 0, fun _ => 0⟩, ?_, ?_⟩
  · unfold openSeries
    norm_num [firstIndex]
  · refine ⟨[fun _ => 0, fun _ => 5 / 4, fun _ => -5 / 8], ?_, by norm_num, ?_⟩
    · have a1 : advance [0, 1, 2, 3] (fun x _ => if x ≤ 1 then 0 else 5) (1 / 2) ⟨0, fun _ => 0, fun _ => 0⟩ = some ⟨0, fun _ => 0, fun _ => 0⟩ :=
        advance_stay (q := 1) rfl (by norm_num)
      have a2 : advance [0, 1, 2, 3] (fun x _ => if x ≤ 1 then 0 else 5) (5 / 4) ⟨0, fun _ => 0, fun _ => 0⟩ = some ⟨1, fun _ => 0, fun _ => 5⟩ := by
        rw [advance_step (q := 1) (r := 2) rfl (by norm_num) rfl, advance_stay (q := 2) rfl (by norm_num)]
        norm_num
      have a3 : advance [0, 1, 2, 3] (fun x _ => if x ≤ 1 then 0 else 5) (7 / 8) ⟨1, fun _ => 0, fun _ => 5⟩ = some ⟨1, fun _ => 0, fun _ => 5⟩ :=
        advance_stay (q := 2) rfl (by norm_num)
      unfold readAll readSeries
      rw [a1]
      simp only [List.getElem?_cons_zero, List.getElem?_cons_succ, Nat.zero_add]
      unfold readAll readSeries
      simp only [mul_zero, sub_self, add_zero]
      rw [a2]
      simp only [List.getElem?_cons_zero, List.getElem?_cons_succ]
      unfold readAll readSeries
      rw [a3]
      simp only [List.getElem?_cons_zero, List.getElem?_cons_succ, readAll]
      norm_num
    · rintro ⟨j, hj, a1, a2, e⟩
      have : j + 1 < 4 := hj
      have : j = 0 ∨ j = 1 ∨ j = 2 := by omega
      rcases this with rfl | rfl | rfl
      · norm_num at e
      · norm_num at a1
      · norm_num at a1

/-- **C85, a limit of the code.** The direction of the wind is interpolated as a number: half way between 350 and 10 degrees the wind is that of 180 degrees, opposite to both
but for 10 degrees. -/
theorem C85_direction : ∃ s vs, openSeries [0, 2, 4] (fun x _ => if x ≤ 0 then 350 else 10) (0 : ℝ) = some s ∧
    readAll [0, 2, 4] (fun x _ => if x ≤ 0 then 350 else 10) [1] s = some vs ∧ vs.map (fun v => velocity 7 (v 0)) = [(-7, 0)] := by
  refine ⟨⟨0, fun _ => 350, fun _ => 10⟩, [fun _ => 180], ?_, ?_, ?_⟩
  · unfold openSeries
    norm_num [firstIndex]
  · have a1 : advance [0, 2, 4] (fun x _ => if x ≤ 0 then 350 else 10) 1 ⟨0, fun _ => 350, fun _ => 10⟩ = some ⟨0, fun _ => 350, fun _ => 10⟩ :=
      advance_stay (q := 2) rfl (by norm_num)
    unfold readAll readSeries
    rw [a1]
    simp only [List.getElem?_cons_zero, List.getElem?_cons_succ, Nat.zero_add, readAll]
    norm_num
  · unfold velocity
    simp only [List.map_cons, List.map_nil]
    rw [show (180 : ℝ) * Real.pi / 180 = Real.pi by ring]
    simp

/-- The hypothesis of `C85_refused` can be met. -/
example : ((fun _ xs _ => xs ++ xs : ℝ → List ℝ → List ℝ → List ℝ) 1 [1, 1, 1] [1, 1, 1]).length ≠ 3 := by simp

/-- The hypotheses of `C85_wind`, `C85_pressure`, `C85_sign`, `C85_opens`, `C85_series` can be met. -/
example : checkForcefield (.fn fun t xs _ => xs.map (· + t)) = some (.fn fun t xs _ => xs.map (· + t)) ∧
    ((Field.fn fun t xs _ => xs.map (· + t)).values 3 [1, 2] [0, 0]).length = 2 ∧
    (((⟨0, 1⟩ : Pt ℝ).y - (⟨0, 0⟩ : Pt ℝ).y) * ((⟨1, 0⟩ : Pt ℝ).x - (⟨0, 0⟩ : Pt ℝ).x) - ((⟨1, 0⟩ : Pt ℝ).y - (⟨0, 0⟩ : Pt ℝ).y) * ((⟨0, 1⟩ : Pt ℝ).x - (⟨0, 0⟩ : Pt ℝ).x) ≠ 0) ∧
    (openSeries [0, 1, 3] (fun x _ => x ^ 2) (1 / 2)).isSome ∧ ([0, 1, 3] : List ℝ).Pairwise (· < ·) ∧ ([1 / 2, 1, 1, 5 / 2] : List ℝ).Pairwise (· ≤ ·) ∧
    Linear [0, 1, 3] (fun x => x ^ 2) 2 5 := by
  refine ⟨by simp [checkForcefield], rfl, by norm_num, (C85_opens _ _ _).mpr ⟨by simp, by norm_num, by norm_num, by norm_num⟩, by norm_num, by norm_num, 1, by simp, by norm_num, by norm_num, by norm_num⟩

end Verif.Forcing
