import Verif.Gate.Model

/-!
# C74: the operator for internal boundaries
-/

namespace Verif.Gate

set_option linter.unusedSectionVars false

variable {K : Type*} [Field K] [LinearOrder K] [IsStrictOrderedRing K]

/-- Water flows from the higher level: positive discharge from the head to the tail. -/
def SignOk (f : K → K → K) : Prop := ∀ h t, (t ≤ h → 0 ≤ f h t) ∧ (h ≤ t → f h t ≤ 0)

/-- No smoothing: the time scale is not longer than the step, or the step is not positive. -/
def NoSmoothing (dt tau : K) : Prop := dt ≤ 0 ∨ (tau ≤ dt ∧ 1 / 10 ^ 30 ≤ dt)

/-- `x` are the changes of the two levels, over inlets of areas `A0` and `A1`, due to the discharge at the levels after the change. -/
def Balance (f : K → K → K) (A0 A1 dt E0 E1 : K) (x : K × K) : Prop :=
  x.1 * A0 = -(f (E0 + x.1) (E1 + x.2) * dt) ∧ x.2 * A1 = f (E0 + x.1) (E1 + x.2) * dt

/-- The root finder solves the equations it is given at this call. -/
def Solves (g : Op K) (dt E0 E1 : K) : Prop :=
  ∀ F : K × K → K × K, (∀ x, F x = 0 ↔ Balance g.f g.A0 g.A1 dt E0 E1 x) → F (g.root F) = 0

theorem factor_range (dt tau : K) : 0 < factor dt tau ∧ factor dt tau ≤ 1 := by
  unfold factor
  split_ifs with h
  · have h1 : dt ≤ max (max dt tau) (1 / 10 ^ 30) := (le_max_left _ _).trans (le_max_left _ _)
    have h2 : 0 < max (max dt tau) (1 / 10 ^ 30) := h.trans_le h1
    exact ⟨div_pos h h2, (div_le_one h2).mpr h1⟩
  · exact ⟨one_pos, le_rfl⟩

theorem factor_one {dt tau : K} (h : NoSmoothing dt tau) : factor dt tau = 1 := by
  unfold factor
  split_ifs with h0
  · rcases h with h | ⟨h1, h2⟩
    · exact absurd h0 (not_lt.mpr h)
    · rw [max_eq_left h1, max_eq_left h2, div_self h0.ne']
  · rfl

theorem sgn_pos {x : K} (h : 0 < x) : sgn x = 1 := by
  unfold sgn; rw [if_neg (not_lt.mpr h.le), if_pos h]

theorem sgn_neg {x : K} (h : x < 0) : sgn x = -1 := by
  unfold sgn; rw [if_pos h]

theorem sgn_zero : sgn (0 : K) = 0 := by
  unfold sgn; simp

theorem sgn_eq {x y : K} (h : sgn x = sgn y) : (0 < x ↔ 0 < y) ∧ (x < 0 ↔ y < 0) := by
  rcases lt_trichotomy x 0 with hx | hx | hx <;> rcases lt_trichotomy y 0 with hy | hy | hy <;>
    simp [sgn_pos, sgn_neg, sgn_zero, hx, hy, hx.le, hy.le, not_lt.mpr] at h ⊢ <;> norm_num at h

/-- The discharge that comes out of smoothing. -/
theorem smoothed {sQ Q : K} : let o := if sgn sQ ≠ sgn Q then 0 else min |sQ| |Q|
    0 ≤ o ∧ o ≤ |Q| ∧ o ≤ |sQ| ∧ (0 < o → (0 < Q ∧ 0 < sQ) ∨ (Q < 0 ∧ sQ < 0)) := by
  intro o
  by_cases h : sgn sQ = sgn Q
  · have e : o = min |sQ| |Q| := if_neg (not_not.mpr h)
    rw [e]
    refine ⟨le_min (abs_nonneg _) (abs_nonneg _), min_le_right _ _, min_le_left _ _, fun hp => ?_⟩
    have hq : Q ≠ 0 := abs_pos.mp (hp.trans_le (min_le_right _ _))
    obtain ⟨h1, h2⟩ := sgn_eq h
    rcases lt_or_gt_of_ne hq with hq | hq
    · exact Or.inr ⟨hq, h2.mpr hq⟩
    · exact Or.inl ⟨hq, h1.mpr hq⟩
  · have e : o = 0 := if_pos h
    rw [e]
    exact ⟨le_rfl, abs_nonneg _, abs_nonneg _, fun hp => absurd hp (lt_irrefl _)⟩

/-- One explicit call, whatever happened before. Nothing passes a closed structure. The discharge is not negative. If the discharge function
lets water flow from the higher level only, then water flows only if the levels differ, and the inflow is the higher inlet. The smoothed
difference never has the wrong sign. -/
theorem C74_explicit_step (f : K → K → K) (height dt tau E0 E1 : K) (s : Smooth K) :
    let r := explicit f height dt tau E0 E1 s
    0 ≤ r.1.Q ∧ (height ≤ 0 → r.1.Q = 0 ∧ r.2 = s) ∧
    (0 < height → r.1.Q ≤ |r.2.Q| ∧ (E1 ≤ E0 → 0 ≤ r.2.dE) ∧ (E0 ≤ E1 → r.2.dE ≤ 0) ∧ |r.2.dE| ≤ max |s.dE| |E0 - E1| ∧
      (E1 ≤ E0 → r.1.Q ≤ |f E0 (E0 - r.2.dE)|) ∧ (E0 < E1 → r.1.Q ≤ |f (E1 + r.2.dE) E1|) ∧
      (SignOk f → 0 < r.1.Q → (r.1.forward = true ∧ E1 < E0) ∨ (r.1.forward = false ∧ E0 < E1))) := by
  intro r
  by_cases hh : height ≤ 0
  · have e : r = (⟨0, true⟩, s) := if_pos hh
    rw [e]
    exact ⟨le_rfl, fun _ => ⟨rfl, rfl⟩, fun h => absurd hh (not_le.mpr h)⟩
  · obtain ⟨t0, t1⟩ := factor_range dt tau
    obtain ⟨e0, he0⟩ : ∃ e0, e0 = s.dE + factor dt tau * ((E0 - E1) - s.dE) := ⟨_, rfl⟩
    obtain ⟨e, he⟩ : ∃ e, e = (if sgn e0 ≠ sgn (E0 - E1) then 0 else e0) := ⟨_, rfl⟩
    obtain ⟨Q, hQ⟩ : ∃ Q, Q = (if E0 ≥ E1 then f E0 (E0 - e) else f (E1 + e) E1) := ⟨_, rfl⟩
    obtain ⟨sQ, hsQ⟩ : ∃ sQ, sQ = s.Q + factor dt tau * (Q - s.Q) := ⟨_, rfl⟩
    have er : r = (⟨if sgn sQ ≠ sgn Q then 0 else min |sQ| |Q|, decide (sQ ≥ 0)⟩, ⟨e, sQ⟩) := by
      rw [hsQ, hQ, he, he0]
      exact if_neg hh
    have h1 : E1 ≤ E0 → 0 ≤ e := by
      intro h
      rw [he]
      split_ifs with hx
      · exact le_rfl
      · by_contra hc
        have := (sgn_eq (not_not.mp hx)).2.mp (not_le.mp hc)
        linarith
    have h2 : E0 ≤ E1 → e ≤ 0 := by
      intro h
      rw [he]
      split_ifs with hx
      · exact le_rfl
      · by_contra hc
        have := (sgn_eq (not_not.mp hx)).1.mp (not_le.mp hc)
        linarith
    have h3 : |e| ≤ max |s.dE| |E0 - E1| := by
      rw [he]
      split_ifs with hx
      · rw [abs_zero]; exact (abs_nonneg _).trans (le_max_left _ _)
      · rw [he0]
        have : s.dE + factor dt tau * (E0 - E1 - s.dE) = (1 - factor dt tau) * s.dE + factor dt tau * (E0 - E1) := by ring
        rw [this]
        calc |(1 - factor dt tau) * s.dE + factor dt tau * (E0 - E1)|
            ≤ |(1 - factor dt tau) * s.dE| + |factor dt tau * (E0 - E1)| := abs_add_le _ _
          _ = (1 - factor dt tau) * |s.dE| + factor dt tau * |E0 - E1| := by
              rw [abs_mul, abs_mul, abs_of_nonneg (sub_nonneg.mpr t1), abs_of_pos t0]
          _ ≤ (1 - factor dt tau) * max |s.dE| |E0 - E1| + factor dt tau * max |s.dE| |E0 - E1| :=
              add_le_add (mul_le_mul_of_nonneg_left (le_max_left _ _) (sub_nonneg.mpr t1)) (mul_le_mul_of_nonneg_left (le_max_right _ _) t0.le)
          _ = max |s.dE| |E0 - E1| := by ring
    obtain ⟨q0, q1, q2, q3⟩ := smoothed (sQ := sQ) (Q := Q)
    rw [er]
    refine ⟨q0, fun h => absurd h hh, fun _ => ⟨q2, h1, h2, h3, fun h => ?_, fun h => ?_, fun hs hp => ?_⟩⟩
    · rw [if_pos (show E0 ≥ E1 from h)] at hQ
      rw [← hQ]; exact q1
    · rw [if_neg (not_le.mpr h)] at hQ
      rw [← hQ]; exact q1
    · rcases q3 hp with ⟨a, b⟩ | ⟨a, b⟩
      · refine Or.inl ⟨decide_eq_true b.le, ?_⟩
        by_contra hc
        have hle := not_lt.mp hc
        have : Q ≤ 0 := by
          rw [hQ]
          have e2 := h2 hle
          split_ifs with hx
          · exact (hs _ _).2 (by linarith)
          · exact (hs _ _).2 (by linarith)
        linarith
      · refine Or.inr ⟨decide_eq_false (not_le.mpr b), ?_⟩
        by_contra hc
        have hle := not_lt.mp hc
        have : 0 ≤ Q := by
          rw [hQ, if_pos (show E0 ≥ E1 from hle)]
          exact (hs _ _).1 (by linarith [h1 hle])
        linarith

/-- Without smoothing an explicit call gives the discharge function at the present levels, whatever happened before. -/
theorem C74_explicit_unsmoothed (f : K → K → K) {height dt tau : K} (hh : 0 < height) (ht : NoSmoothing dt tau) (E0 E1 : K) (s : Smooth K) :
    explicit f height dt tau E0 E1 s = (⟨|f E0 E1|, decide (0 ≤ f E0 E1)⟩, ⟨E0 - E1, f E0 E1⟩) := by
  unfold explicit
  rw [if_neg (not_le.mpr hh), factor_one ht]
  have e1 : s.dE + 1 * (E0 - E1 - s.dE) = E0 - E1 := by ring
  have e2 : (if E0 ≥ E1 then f E0 (E0 - (E0 - E1)) else f (E1 + (E0 - E1)) E1) = f E0 E1 := by
    split_ifs
    · congr 1; ring
    · congr 1; ring
  have e3 : s.Q + 1 * (f E0 E1 - s.Q) = f E0 E1 := by ring
  simp only [e1, ne_eq, not_true_eq_false, if_false, e2, e3, min_self]

theorem implicit_eq (g : Op K) (dt tau E0 E1 : K) (s : Smooth K) : ∃ q,
    (dt ≤ 0 → q = g.f E0 E1) ∧
    (0 < dt → 0 < g.A0 → 0 < g.A1 → Solves g dt E0 E1 → q = g.f (E0 - q * dt / g.A0) (E1 + q * dt / g.A1)) ∧
    implicit g.root g.f g.A0 g.A1 dt tau E0 E1 s =
      (⟨if sgn (s.Q + factor dt tau * (q - s.Q)) ≠ sgn q then 0 else min |s.Q + factor dt tau * (q - s.Q)| |q|, decide (0 ≤ q)⟩,
        ⟨s.dE, if sgn (s.Q + factor dt tau * (q - s.Q)) ≠ sgn q then 0 else s.Q + factor dt tau * (q - s.Q)⟩) := by
  obtain ⟨F, hF⟩ : ∃ F, F = fun x : K × K => (x.1 * g.A0 - g.f (E0 + x.1) (E1 + x.2) * dt * -1, x.2 * g.A1 - g.f (E0 + x.1) (E1 + x.2) * dt * 1) :=
    ⟨_, rfl⟩
  obtain ⟨q, hq⟩ : ∃ q, q = (if dt > 0 then g.f (E0 + (g.root F).1) (E1 + (g.root F).2) else g.f E0 E1) := ⟨_, rfl⟩
  refine ⟨q, fun h => ?_, fun h hA0 hA1 hs => ?_, ?_⟩
  · rw [hq, if_neg (not_lt.mpr h)]
  · have hb : ∀ x, F x = 0 ↔ Balance g.f g.A0 g.A1 dt E0 E1 x := by
      intro x
      rw [hF, Prod.ext_iff]
      unfold Balance
      simp only [Prod.fst_zero, Prod.snd_zero]
      constructor
      · rintro ⟨a, b⟩
        exact ⟨by linarith, by linarith⟩
      · rintro ⟨a, b⟩
        exact ⟨by linarith, by linarith⟩
    obtain ⟨b1, b2⟩ := (hb _).mp (hs F hb)
    have hq' : q = g.f (E0 + (g.root F).1) (E1 + (g.root F).2) := by rw [hq, if_pos h]
    rw [← hq'] at b1 b2
    have c1 : (g.root F).1 = -(q * dt / g.A0) := by
      rw [eq_neg_iff_add_eq_zero]; field_simp; linarith
    have c2 : (g.root F).2 = q * dt / g.A1 := by
      field_simp; linarith
    rw [c1, c2, ← sub_eq_add_neg] at hq'
    exact hq'
  · unfold implicit
    simp only [← hF, ← hq]
    split_ifs <;> rfl

/-- One implicit call with a root finder that solves its equations. There is a discharge `q` that equals the discharge function at the levels
that it leads to; the call moves at most that, in that direction. If the function lets water flow from the higher level only, then water
leaves the higher inlet and the levels do not cross: after the step the inflow is still the higher one. -/
theorem C74_implicit_step (g : Op K) (h0 : 0 < g.A0) (h1 : 0 < g.A1) {dt tau E0 E1 : K} (hdt : 0 < dt) (hs : Solves g dt E0 E1)
    (s : Smooth K) :
    let r := implicit g.root g.f g.A0 g.A1 dt tau E0 E1 s
    ∃ q, q = g.f (E0 - q * dt / g.A0) (E1 + q * dt / g.A1) ∧ 0 ≤ r.1.Q ∧ r.1.Q ≤ |q| ∧ (r.1.forward = true ↔ 0 ≤ q) ∧
      (NoSmoothing dt tau → r.1.Q = |q| ∧ r.2.Q = q) ∧
      (SignOk g.f → 0 < r.1.Q →
        (r.1.forward = true ∧ E1 + r.1.Q * dt / g.A1 < E0 - r.1.Q * dt / g.A0) ∨
        (r.1.forward = false ∧ E0 + r.1.Q * dt / g.A0 < E1 - r.1.Q * dt / g.A1)) := by
  intro r
  obtain ⟨q, -, hq, hr⟩ := implicit_eq g dt tau E0 E1 s
  have hq := hq hdt h0 h1 hs
  obtain ⟨q0, q1, -, q3⟩ := smoothed (sQ := s.Q + factor dt tau * (q - s.Q)) (Q := q)
  have er : r = _ := hr
  rw [er]
  refine ⟨q, hq, q0, q1, decide_eq_true_iff, fun hn => ?_, fun hsg hp => ?_⟩
  · have : s.Q + factor dt tau * (q - s.Q) = q := by rw [factor_one hn]; ring
    rw [this]
    simp
  · have hA : ∀ A, 0 < A → ∀ x y : K, x ≤ y → x * dt / A ≤ y * dt / A := fun A hA x y hxy =>
      div_le_div_of_nonneg_right (mul_le_mul_of_nonneg_right hxy hdt.le) hA.le
    rcases q3 hp with ⟨a, b⟩ | ⟨a, b⟩
    · refine Or.inl ⟨decide_eq_true a.le, ?_⟩
      have h : E1 + q * dt / g.A1 < E0 - q * dt / g.A0 := by
        by_contra hc
        have := (hsg _ _).2 (not_lt.mp hc)
        rw [← hq] at this
        linarith
      have q1 := q1.trans_eq (abs_of_pos a)
      have k1 := hA _ h0 _ _ q1
      have k2 := hA _ h1 _ _ q1
      simp only
      linarith
    · refine Or.inr ⟨decide_eq_false (not_le.mpr a), ?_⟩
      have h : E0 - q * dt / g.A0 < E1 + q * dt / g.A1 := by
        by_contra hc
        have := (hsg _ _).1 (not_lt.mp hc)
        rw [← hq] at this
        linarith
      have q1 := q1.trans_eq (abs_of_neg a)
      have k1 := hA _ h0 _ _ q1
      have k2 := hA _ h1 _ _ q1
      rw [neg_mul, neg_div] at k1 k2
      simp only
      linarith

/-- If the discharge does not fall when the head rises and does not rise when the tail rises, the discharge of the implicit step is unique. -/
theorem C74_implicit_unique {f : K → K → K} (hf : ∀ h h' t t', h ≤ h' → t' ≤ t → f h t ≤ f h' t') {A0 A1 dt : K} (h0 : 0 < A0) (h1 : 0 < A1)
    (hdt : 0 < dt) {E0 E1 q q' : K} (hq : q = f (E0 - q * dt / A0) (E1 + q * dt / A1)) (hq' : q' = f (E0 - q' * dt / A0) (E1 + q' * dt / A1)) :
    q = q' := by
  have hA : ∀ A, 0 < A → ∀ x y : K, x ≤ y → x * dt / A ≤ y * dt / A := fun A hA x y hxy =>
    div_le_div_of_nonneg_right (mul_le_mul_of_nonneg_right hxy hdt.le) hA.le
  have key : ∀ x y, x = f (E0 - x * dt / A0) (E1 + x * dt / A1) → y = f (E0 - y * dt / A0) (E1 + y * dt / A1) → x ≤ y → y ≤ x := by
    intro x y hx hy hxy
    have k0 := hA _ h0 _ _ hxy
    have k1 := hA _ h1 _ _ hxy
    have := hf (E0 - y * dt / A0) (E0 - x * dt / A0) (E1 + y * dt / A1) (E1 + x * dt / A1) (by linarith) (by linarith)
    rwa [← hx, ← hy] at this
  rcases le_total q q' with h | h
  · exact le_antisymm h (key _ _ hq hq' h)
  · exact le_antisymm (key _ _ hq' hq h) h

/-- In any run, from any state, water only ever leaves the inlet that is higher at the time. -/
theorem C74_run_downhill (g : Op K) (hf : SignOk g.f) (h0 : 0 < g.A0) (h1 : 0 < g.A1) (tau : K) (l : List (K × K × K))
    (hs : g.implicitly = true → ∀ x ∈ l, 0 < x.1 → Solves g x.1 x.2.1 x.2.2) : ∀ s : Smooth K,
    (g.run tau s l).1.length = l.length ∧
    ∀ (i : ℕ) (o : Out K) (x : K × K × K), (g.run tau s l).1[i]? = some o → l[i]? = some x → 0 ≤ o.Q ∧
      (0 < o.Q → (o.forward = true ∧ x.2.2 < x.2.1) ∨ (o.forward = false ∧ x.2.1 < x.2.2)) := by
  induction l with
  | nil => exact fun s => ⟨rfl, fun i o x h => by simp [Op.run] at h⟩
  | cons y l ih =>
    intro s
    obtain ⟨dt, E0, E1⟩ := y
    have er : g.run tau s ((dt, E0, E1) :: l) = ((g.routine dt tau E0 E1 s).1 :: (g.run tau (g.routine dt tau E0 E1 s).2 l).1,
        (g.run tau (g.routine dt tau E0 E1 s).2 l).2) := rfl
    obtain ⟨i1, i2⟩ := ih (fun hi x hx => hs hi x (List.mem_cons_of_mem _ hx)) (g.routine dt tau E0 E1 s).2
    rw [er]
    refine ⟨by simp [i1], fun i o x ho hx => ?_⟩
    cases i with
    | succ i => exact i2 i o x (by simpa using ho) (by simpa using hx)
    | zero =>
      have ho' : (g.routine dt tau E0 E1 s).1 = o := by simpa using ho
      have hx' : (dt, E0, E1) = x := by simpa using hx
      subst ho' hx'
      unfold Op.routine
      split_ifs with hi
      · obtain ⟨q, hq0, -, hr⟩ := implicit_eq g dt tau E0 E1 s
        obtain ⟨q0, q1, -, q3⟩ := smoothed (sQ := s.Q + factor dt tau * (q - s.Q)) (Q := q)
        by_cases hdt : 0 < dt
        · obtain ⟨q', -, p0, -, -, -, p1⟩ := C74_implicit_step g h0 h1 (tau := tau) hdt (hs hi _ List.mem_cons_self hdt) s
          refine ⟨p0, fun hp => ?_⟩
          have c0 : 0 < (implicit g.root g.f g.A0 g.A1 dt tau E0 E1 s).1.Q * dt / g.A0 := div_pos (mul_pos hp hdt) h0
          have c1 : 0 < (implicit g.root g.f g.A0 g.A1 dt tau E0 E1 s).1.Q * dt / g.A1 := div_pos (mul_pos hp hdt) h1
          rcases p1 hf hp with ⟨a, b⟩ | ⟨a, b⟩
          · exact Or.inl ⟨a, show E1 < E0 by linarith⟩
          · exact Or.inr ⟨a, show E0 < E1 by linarith⟩
        · rw [hr]
          refine ⟨q0, fun hp => ?_⟩
          have hqe := hq0 (not_lt.mp hdt)
          rcases q3 hp with ⟨a, b⟩ | ⟨a, b⟩
          · refine Or.inl ⟨decide_eq_true a.le, ?_⟩
            by_contra hc
            have := (hf E0 E1).2 (not_lt.mp hc)
            rw [← hqe] at this
            linarith
          · refine Or.inr ⟨decide_eq_false (not_le.mpr a), ?_⟩
            by_contra hc
            have := (hf E0 E1).1 (not_lt.mp hc)
            rw [← hqe] at this
            linarith
      · obtain ⟨p0, p1, p2⟩ := C74_explicit_step g.f g.height dt tau E0 E1 s
        refine ⟨p0, fun hp => ?_⟩
        by_cases hh : g.height ≤ 0
        · rw [(p1 hh).1] at hp
          exact absurd hp (lt_irrefl _)
        · exact (p2 (not_le.mp hh)).2.2.2.2.2.2 hf hp

/-- The constructor stores the discharge without its sign. With smoothing, a structure set up with inlet 0 higher carries the full discharge in
the first step; one set up with inlet 1 higher carries nothing. -/
theorem C74_first_step_asymmetric (g : Op K) (hh : 0 < g.height) (hi : g.implicitly = false) {dt0 dt tau : K} (h0 : dt0 ≤ 0) (hdt : 0 < dt)
    (htau : 2 * dt < tau) (h30 : 1 / 10 ^ 30 ≤ tau) (E0 E1 : K) :
    (0 ≤ g.f E0 E1 → (g.routine dt tau E0 E1 (g.init dt0 E0 E1)).1 = ⟨g.f E0 E1, true⟩) ∧
    (g.f E0 E1 < 0 → (g.routine dt tau E0 E1 (g.init dt0 E0 E1)).1.Q = 0) := by
  have hroutine : ∀ dt tau s, g.routine dt tau E0 E1 s = explicit g.f g.height dt tau E0 E1 s := by
    intro dt tau s
    unfold Op.routine
    rw [hi]
    rfl
  have hinit : g.init dt0 E0 E1 = ⟨E0 - E1, |g.f E0 E1|⟩ := by
    unfold Op.init
    rw [hroutine, C74_explicit_unsmoothed g.f hh (Or.inl h0)]
  have htau0 : 0 < tau := by linarith
  have hf : factor dt tau = dt / tau := by
    unfold factor
    rw [if_pos hdt, max_eq_right (by linarith : dt ≤ tau), max_eq_left h30]
  have hts : dt / tau < 1 / 2 := by rw [div_lt_div_iff₀ htau0 (by norm_num)]; linarith
  rw [hinit, hroutine]
  have e1 : E0 - E1 + dt / tau * (E0 - E1 - (E0 - E1)) = E0 - E1 := by ring
  have e2 : (if E0 ≥ E1 then g.f E0 (E0 - (E0 - E1)) else g.f (E1 + (E0 - E1)) E1) = g.f E0 E1 := by
    split_ifs
    · congr 1; ring
    · congr 1; ring
  have er : explicit g.f g.height dt tau E0 E1 ⟨E0 - E1, |g.f E0 E1|⟩ =
      (⟨if sgn (|g.f E0 E1| + dt / tau * (g.f E0 E1 - |g.f E0 E1|)) ≠ sgn (g.f E0 E1) then 0 else
        min |(|g.f E0 E1| + dt / tau * (g.f E0 E1 - |g.f E0 E1|))| |g.f E0 E1|, decide (|g.f E0 E1| + dt / tau * (g.f E0 E1 - |g.f E0 E1|) ≥ 0)⟩,
        ⟨E0 - E1, |g.f E0 E1| + dt / tau * (g.f E0 E1 - |g.f E0 E1|)⟩) := by
    unfold explicit
    rw [if_neg (not_le.mpr hh), hf]
    simp only [e1, ne_eq, not_true_eq_false, if_false, e2]
  rw [er]
  constructor
  · intro hq
    have : |g.f E0 E1| + dt / tau * (g.f E0 E1 - |g.f E0 E1|) = g.f E0 E1 := by rw [abs_of_nonneg hq]; ring
    rw [this]
    simp [abs_of_nonneg hq, hq]
  · intro hq
    have : 0 < |g.f E0 E1| + dt / tau * (g.f E0 E1 - |g.f E0 E1|) := by
      rw [abs_of_neg hq]
      nlinarith
    simp only
    rw [if_pos]
    rw [sgn_pos this, sgn_neg hq]
    norm_num

/-- Water runs through a structure that is closed (height 0) if the discharge is computed implicitly, which is the default. -/
theorem C74_closed_but_flowing : ∃ (g : Op ℚ) (dt E0 E1 : ℚ), g.implicitly = true ∧ g.height = 0 ∧ SignOk g.f ∧ 0 < g.A0 ∧ 0 < g.A1 ∧ 0 < dt ∧
    Solves g dt E0 E1 ∧ ∀ s, 0 < (g.routine dt 0 E0 E1 s).1.Q ∧
      ({ g with implicitly := false }.routine dt 0 E0 E1 s).1.Q = 0 := by
  refine ⟨⟨fun h t => h - t, 0, true, 1, 1, fun _ => (-(1 / 3), 1 / 3)⟩, 1, 1, 0, rfl, rfl, ?_, one_pos, one_pos, one_pos, ?_, ?_⟩
  · exact fun h t => ⟨fun hx => sub_nonneg.mpr hx, fun hx => sub_nonpos.mpr hx⟩
  · intro F hF
    rw [hF]
    constructor <;> norm_num
  · intro s
    refine ⟨?_, rfl⟩
    have hs : Solves (⟨fun h t => h - t, 0, true, 1, 1, fun _ => (-(1 / 3), 1 / 3)⟩ : Op ℚ) 1 1 0 := by
      intro F hF
      rw [hF]
      constructor <;> norm_num
    obtain ⟨q, hq, -, -, -, h1, -⟩ := C74_implicit_step (⟨fun h t => h - t, 0, true, 1, 1, fun _ => (-(1 / 3), 1 / 3)⟩ : Op ℚ)
      one_pos one_pos (tau := 0) one_pos hs s
    have hq3 : q = 1 / 3 := by
      simp only at hq
      linarith
    have := (h1 (Or.inr ⟨by norm_num, by norm_num⟩)).1
    show 0 < (implicit _ _ _ _ _ _ _ _ s).1.Q
    rw [this, hq3]
    norm_num

/-- A discharge function to which the theorems apply. -/
example : SignOk (fun h t : ℚ => 2 * (h - t)) ∧ (∀ h h' t t' : ℚ, h ≤ h' → t' ≤ t → 2 * (h - t) ≤ 2 * (h' - t')) :=
  ⟨fun h t => ⟨fun hx => by linarith, fun hx => by linarith⟩, fun h h' t t' a b => by linarith⟩

end Verif.Gate
