import Verif.Culvert.Props

/-!
# C71: choice of the inflow, smoothing in time and limit of the velocity
-/

namespace Verif.Culvert

open Real

/-- Boxes, pipes and trapezoids of ordinary dimensions, or blocked. -/
theorem C71_structures :
    (∀ (c : Box) (u : Bool), c.Ok ∨ 1 ≤ c.blockage → (c.kind u).Good) ∧
    (∀ (c : Pipe) (u : Bool), c.Ok ∨ 1 ≤ c.blockage → (c.kind u).Good) ∧
    (∀ (crit : ℝ → ℝ) (c : Weir) (u : Bool), (∀ q, 0 ≤ q → 0 < crit q) → c.Ok ∨ 1 ≤ c.blockage → (c.kind crit u).Good) ∧
    (∀ (c : Box) (u : Bool), c.Ok → (c.kind u).Carries ∧ (c.kind u).closed = false) ∧
    (∀ (c : Pipe) (u : Bool), c.Ok → (c.kind u).Carries ∧ (c.kind u).closed = false) ∧
    (∀ (crit : ℝ → ℝ) (c : Weir) (u : Bool), (∀ q, 0 ≤ q → 0 < crit q) → c.Ok → (c.kind crit u).Carries ∧ (c.kind crit u).closed = false) := by
  refine ⟨?_, ?_, ?_, ?_, ?_, ?_⟩
  · rintro c u (h | h) E dH outD hE hd
    · obtain ⟨f, P, hf, -, -, d0, -, ha, hg, -⟩ := C70_box h hE hd outD
      exact ⟨f, hf, hg.1.1, by rw [ha]; exact mul_pos (c.open_pos h) d0⟩
    · exact ⟨_, if_pos h, le_rfl, by norm_num⟩
  · rintro c u (h | h) E dH outD hE hd
    · obtain ⟨f, D, P, hf, -, -, -, -, -, -, hA, -, -, -, hg, -⟩ := C70_pipe h hE hd outD
      exact ⟨f, hf, hg.1.1, hA⟩
    · exact ⟨_, if_pos h, le_rfl, by norm_num⟩
  · rintro crit c u hcr (h | h) E dH outD hE hd
    · obtain ⟨f, hf, d0, -, fa, q0, -⟩ := weirFn_spec hcr h hE hd outD
      exact ⟨f, hf, q0, by rw [fa]; exact weirArea_pos h d0⟩
    · exact ⟨_, if_pos h, le_rfl, by norm_num⟩
  · intro c u h
    refine ⟨fun E dH outD f hE hd hf => ?_, decide_eq_false (not_le.mpr h.height)⟩
    obtain ⟨s1, s2, s3, s4, s5⟩ := c.sect_pos h hE dH outD
    have e : boxFn c E dH outD = some f := hf
    rw [boxFn_eq h hE hd.le outD] at e
    obtain rfl := Option.some.inj e
    show 0 < c.flow E dH outD
    unfold Box.flow
    simp only
    split_ifs
    · exact lt_min (c.inlet_pos h hE) (mul_pos s5 (Real.sqrt_pos.mpr (div_pos hd (lossRate_pos h.toOk (div_pos s5 s4)))))
    · exact c.inlet_pos h hE
  · intro c u h
    refine ⟨fun E dH outD f hE hd hf => ?_, decide_eq_false (not_le.mpr h.diameter)⟩
    obtain ⟨d, A, P, -, d0, dD, A0, A1, P0, hful, hfn⟩ := pipeFn_spec h hE hd.le outD
    have e : pipeFn c E dH outD = some f := hf
    rw [hfn] at e
    obtain rfl := Option.some.inj e
    exact lt_min (c.inlet_pos h hE) (mul_pos A0 (Real.sqrt_pos.mpr (div_pos hd (lossRate_pos h.toOk (div_pos A0 P0)))))
  · intro crit c u hcr h
    refine ⟨fun E dH outD f hE hd hf => ?_, decide_eq_false (not_le.mpr h.height)⟩
    obtain ⟨f', hf', -, -, -, -, -, -, -, -, -, hp⟩ := weirFn_spec hcr h hE hd.le outD
    have e : weirFn crit c E dH outD = some f := hf
    rw [hf'] at e
    obtain rfl := Option.some.inj e
    exact hp hd

theorem factor_range (dt tau : ℝ) : 0 < factor dt tau ∧ factor dt tau ≤ 1 := by
  unfold factor
  split_ifs with h
  · have h1 : dt ≤ max (max dt tau) (1 / 10 ^ 6) := (le_max_left _ _).trans (le_max_left _ _)
    have h2 : 0 < max (max dt tau) (1 / 10 ^ 6) := h.trans_le h1
    exact ⟨div_pos h h2, (div_le_one h2).mpr h1⟩
  · exact ⟨one_pos, le_rfl⟩

theorem factor_one {dt tau : ℝ} (h : dt ≤ 0 ∨ (tau ≤ dt ∧ 1 / 10 ^ 6 ≤ dt)) : factor dt tau = 1 := by
  unfold factor
  split_ifs with h0
  · rcases h with h | ⟨h1, h2⟩
    · exact absurd h0 (not_lt.mpr h)
    · rw [max_eq_left h1, max_eq_left h2, div_self h0.ne']
  · rfl

theorem sgn_pos {x : ℝ} (h : 0 < x) : sgn x = 1 := by
  unfold sgn; rw [if_neg (not_lt.mpr h.le), if_pos h]

theorem sgn_neg {x : ℝ} (h : x < 0) : sgn x = -1 := by
  unfold sgn; rw [if_pos h]

theorem sgn_zero : sgn 0 = 0 := by
  unfold sgn; simp

theorem sgn_eq {x y : ℝ} (h : sgn x = sgn y) : (0 < x ↔ 0 < y) ∧ (x < 0 ↔ y < 0) := by
  rcases lt_trichotomy x 0 with hx | hx | hx <;> rcases lt_trichotomy y 0 with hy | hy | hy <;>
    simp [sgn_pos, sgn_neg, sgn_zero, hx, hy, hx.le, hy.le, not_lt.mpr] at h ⊢ <;> norm_num at h

theorem smoothEnergy_between {old new ts : ℝ} (h0 : 0 < ts) (h1 : ts ≤ 1) {lo hi : ℝ} (a : lo ≤ old ∧ old ≤ hi) (b : lo ≤ new ∧ new ≤ hi) :
    lo ≤ smoothEnergy old new ts ∧ smoothEnergy old new ts ≤ hi := by
  unfold smoothEnergy
  constructor <;> nlinarith

/-- What one call of a structure that is not closed does. -/
theorem routine_open {k : Kind} (hk : k.Good) (hc : k.closed = false) (dt tau : ℝ) {a b : Enq} (ha : 0 ≤ a.head) (hb : 0 ≤ b.head)
    (d : ℝ) (s : Smooth) : let e := smoothEnergy s.dE (k.diff a b) (factor dt tau)
    (¬ (donor (decide (0 ≤ e)) a b).depth > 0.01 → routine k dt tau a b d s = some (⟨0, 0, decide (0 ≤ e), |e|⟩, ⟨e, s.Q⟩)) ∧
    ((donor (decide (0 ≤ e)) a b).depth > 0.01 → ∃ f, k.fn (k.driving (donor (decide (0 ≤ e)) a b)) |e| (donor (!decide (0 ≤ e)) a b).depth = some f ∧
      0 ≤ f.Q ∧ 0 < f.area ∧
      routine k dt tau a b d s = some (⟨min (smoothDischarge e s.Q f.Q f.area (factor dt tau)).2.1 (10 * f.area),
        min ((smoothDischarge e s.Q f.Q f.area (factor dt tau)).2.1 / f.area) 10, decide (0 ≤ e), |e|⟩,
        ⟨e, (smoothDischarge e s.Q f.Q f.area (factor dt tau)).1⟩)) := by
  intro e
  have hE : (if k.useVelocityHead = true then a.total - b.total else a.stage - b.stage) = k.diff a b := rfl
  have hdelta : (if e ≥ 0 then e else -e) = |e| := by
    split_ifs with h
    · rw [abs_of_nonneg h]
    · rw [abs_of_neg (not_le.mp h)]
  have hdon : (if e ≥ 0 then a else b) = donor (decide (0 ≤ e)) a b := by
    unfold donor
    by_cases h : 0 ≤ e <;> simp [h]
  have hrec : (if e ≥ 0 then b else a) = donor (!decide (0 ≤ e)) a b := by
    unfold donor
    by_cases h : 0 ≤ e <;> simp [h]
  have hee : smoothEnergy s.dE (k.diff a b) (factor dt tau) = e := rfl
  constructor
  · intro hdry
    unfold routine
    simp only [hc, Bool.false_eq_true, if_false]
    rw [hE, hee, hdelta, hdon, hrec, if_neg hdry]
  · intro hwet
    have hhead : 0 ≤ (donor (decide (0 ≤ e)) a b).head := by
      unfold donor
      split_ifs
      · exact ha
      · exact hb
    have hdr : (if k.useVelocityHead = true then (donor (decide (0 ≤ e)) a b).specific else (donor (decide (0 ≤ e)) a b).depth) =
        k.driving (donor (decide (0 ≤ e)) a b) := rfl
    have hspec : (donor (decide (0 ≤ e)) a b).specific ≥ 0 := by
      unfold Enq.specific
      norm_num at hwet
      linarith
    have hpos : 0 < k.driving (donor (decide (0 ≤ e)) a b) := by
      unfold Kind.driving
      norm_num at hwet
      split_ifs <;> linarith
    obtain ⟨f, hf, q0, A0⟩ := hk _ |e| (donor (!decide (0 ≤ e)) a b).depth hpos (abs_nonneg e)
    refine ⟨f, hf, q0, A0, ?_⟩
    unfold routine
    simp only [hc, Bool.false_eq_true, if_false]
    rw [hE, hee, hdelta, hdon, hrec, if_pos hwet, if_pos hspec, hdr, hf]
    simp only [Option.bind_eq_bind, Option.bind_some]
    have hvel : (smoothDischarge e s.Q f.Q f.area (factor dt tau)).2.2 = (smoothDischarge e s.Q f.Q f.area (factor dt tau)).2.1 / f.area :=
      if_neg A0.ne'
    rw [hvel]
    split_ifs with hv
    · have : 10 * f.area ≤ (smoothDischarge e s.Q f.Q f.area (factor dt tau)).2.1 := ((lt_div_iff₀ A0).mp hv).le
      rw [min_eq_right this, min_eq_right hv.le, mul_comm]
    · have hv' := not_lt.mp hv
      have : (smoothDischarge e s.Q f.Q f.area (factor dt tau)).2.1 ≤ 10 * f.area := (div_le_iff₀ A0).mp hv'
      rw [min_eq_left this, min_eq_left hv']

theorem smoothDischarge_spec {e sQ Q area ts : ℝ} (hQ : 0 ≤ Q) :
    let r := smoothDischarge e sQ Q area ts
    0 ≤ r.2.1 ∧ r.2.1 ≤ Q ∧ r.2.1 ≤ |r.1| ∧ (0 < r.2.1 → 0 < r.1 * e) ∧ (0 < r.1 * e → r.2.1 = min |r.1| Q) := by
  intro r
  by_cases h : sgn r.1 = sgn e
  · have e1 : r.2.1 = min |r.1| Q := if_neg (not_not.mpr h)
    rw [e1]
    refine ⟨le_min (abs_nonneg _) hQ, min_le_right _ _, min_le_left _ _, fun hp => ?_, fun _ => rfl⟩
    have hr : r.1 ≠ 0 := abs_pos.mp (hp.trans_le (min_le_left _ _))
    obtain ⟨h1, h2⟩ := sgn_eq h
    rcases lt_or_gt_of_ne hr with hr | hr
    · exact mul_pos_of_neg_of_neg hr (h2.mp hr)
    · exact mul_pos hr (h1.mp hr)
  · have e1 : r.2.1 = 0 := if_pos h
    rw [e1]
    refine ⟨le_rfl, hQ, abs_nonneg _, fun hp => absurd hp (lt_irrefl _), fun hp => absurd ?_ h⟩
    rcases pos_and_pos_or_neg_and_neg_of_mul_pos hp with ⟨a, b⟩ | ⟨a, b⟩
    · rw [sgn_pos a, sgn_pos b]
    · rw [sgn_neg a, sgn_neg b]

/-- One call. The discharge and the velocity are not negative and the velocity is at most 10. A closed structure and one whose inflow side
is dry carry nothing. The inflow is inlet 0 exactly if the smoothed energy difference is not negative; the smoothed difference lies between
its old value and the present difference. The discharge is at most that of the discharge function for the smoothed difference, and flows the
way the smoothed discharge and the smoothed difference agree on. -/
theorem C71_step {k : Kind} (hk : k.Good) (dt tau : ℝ) {a b : Enq} (ha : 0 ≤ a.head) (hb : 0 ≤ b.head) (d : ℝ) (s : Smooth) :
    ∃ o s', routine k dt tau a b d s = some (o, s') ∧ 0 ≤ o.Q ∧ 0 ≤ o.vel ∧ o.vel ≤ 10 ∧
      min s.dE (k.diff a b) ≤ s'.dE ∧ s'.dE ≤ max s.dE (k.diff a b) ∧
      (k.closed = true → o.Q = 0 ∧ o.vel = 0 ∧ s' = s) ∧
      (k.closed = false → (o.forward = true ↔ 0 ≤ s'.dE) ∧ o.delta = |s'.dE| ∧
        ((donor o.forward a b).depth ≤ 0.01 → o.Q = 0 ∧ o.vel = 0) ∧
        (0.01 < (donor o.forward a b).depth → ∃ f, k.fn (k.driving (donor o.forward a b)) |s'.dE| (donor (!o.forward) a b).depth = some f ∧
          o.Q ≤ f.Q ∧ o.vel * f.area = o.Q ∧ o.Q ≤ |s'.Q| ∧ (0 < o.Q → 0 < s'.Q * s'.dE))) := by
  have hmin : min s.dE (k.diff a b) ≤ s.dE ∧ s.dE ≤ max s.dE (k.diff a b) := ⟨min_le_left _ _, le_max_left _ _⟩
  have hmin' : min s.dE (k.diff a b) ≤ k.diff a b ∧ k.diff a b ≤ max s.dE (k.diff a b) := ⟨min_le_right _ _, le_max_right _ _⟩
  obtain ⟨f0, f1⟩ := factor_range dt tau
  have hbet := smoothEnergy_between f0 f1 hmin hmin'
  by_cases hc : k.closed = true
  · refine ⟨⟨0, 0, true, d⟩, s, if_pos hc, le_rfl, le_rfl, by norm_num, hmin.1, hmin.2, fun _ => ⟨rfl, rfl, rfl⟩, fun h => ?_⟩
    rw [hc] at h
    cases h
  · have hc' : k.closed = false := by simpa using hc
    obtain ⟨hdry, hwet⟩ := routine_open hk hc' dt tau ha hb d s
    by_cases hw : (donor (decide (0 ≤ smoothEnergy s.dE (k.diff a b) (factor dt tau))) a b).depth > 0.01
    · obtain ⟨f, hf, q0, A0, hr⟩ := hwet hw
      obtain ⟨r0, r1, r2, r3, -⟩ := smoothDischarge_spec (e := smoothEnergy s.dE (k.diff a b) (factor dt tau)) (sQ := s.Q) (area := f.area)
        (ts := factor dt tau) q0
      refine ⟨_, _, hr, le_min r0 (by positivity), le_min (by positivity) (by norm_num), min_le_right _ _, hbet.1, hbet.2,
        fun h => absurd h hc, fun _ => ⟨decide_eq_true_iff, rfl, fun h => absurd hw (not_lt.mpr h), fun _ =>
          ⟨f, hf, (min_le_left _ _).trans r1, ?_, (min_le_left _ _).trans r2, fun hp => r3 (hp.trans_le (min_le_left _ _))⟩⟩⟩
      show min _ _ * f.area = min _ _
      rw [min_mul_of_nonneg _ _ A0.le, div_mul_cancel₀ _ A0.ne']
    · refine ⟨_, _, hdry hw, le_rfl, le_rfl, by norm_num, hbet.1, hbet.2,
        fun h => absurd h hc, fun _ => ⟨decide_eq_true_iff, rfl, fun _ => ⟨rfl, rfl⟩, fun h => absurd h hw⟩⟩

/-- Without smoothing (the time scale is not longer than the step, or the step is not positive) the result does not depend on the past:
the inflow is the inlet with the higher energy, and the discharge is that of the discharge function, with the velocity limited to 10. -/
theorem C71_unsmoothed {k : Kind} (hk : k.Good) (hc : k.closed = false) {dt tau : ℝ} (ht : dt ≤ 0 ∨ (tau ≤ dt ∧ 1 / 10 ^ 6 ≤ dt))
    {a b : Enq} (ha : 0 ≤ a.head) (hb : 0 ≤ b.head) (d : ℝ) (s : Smooth) :
    ∃ o s', routine k dt tau a b d s = some (o, s') ∧ (o.forward = true ↔ 0 ≤ k.diff a b) ∧ s'.dE = k.diff a b ∧ o.delta = |k.diff a b| ∧
      (k.diff a b = 0 → o.Q = 0) ∧
      ((donor o.forward a b).depth ≤ 0.01 → o.Q = 0) ∧
      (k.diff a b ≠ 0 → 0.01 < (donor o.forward a b).depth →
        ∃ f, k.fn (k.driving (donor o.forward a b)) |k.diff a b| (donor (!o.forward) a b).depth = some f ∧ o.Q = min f.Q (10 * f.area)) := by
  obtain ⟨hdry, hwet⟩ := routine_open hk hc dt tau ha hb d s
  have he : smoothEnergy s.dE (k.diff a b) (factor dt tau) = k.diff a b := by
    rw [factor_one ht]; unfold smoothEnergy; ring
  rw [he] at hdry hwet
  by_cases hw : (donor (decide (0 ≤ k.diff a b)) a b).depth > 0.01
  · obtain ⟨f, hf, q0, A0, hr⟩ := hwet hw
    rw [factor_one ht] at hr
    have e1 : (smoothDischarge (k.diff a b) s.Q f.Q f.area 1).1 = f.Q * sgn (k.diff a b) := by
      show s.Q + 1 * (f.Q * sgn (k.diff a b) - s.Q) = _
      ring
    obtain ⟨r0, r1, r2, r3, r4⟩ := smoothDischarge_spec (e := k.diff a b) (sQ := s.Q) (area := f.area) (ts := 1) q0
    rw [e1] at r2 r3 r4
    refine ⟨_, _, hr, decide_eq_true_iff, rfl, rfl, fun h0 => ?_, fun h => absurd hw (not_lt.mpr h), fun hne _ => ⟨f, hf, ?_⟩⟩
    · rw [h0, sgn_zero, mul_zero, abs_zero] at r2
      rw [h0] at r0
      show min _ _ = (0 : ℝ)
      rw [h0, le_antisymm r2 r0, min_eq_left (by positivity)]
    · show min _ _ = _
      have hsg : |sgn (k.diff a b)| = 1 ∧ sgn (k.diff a b) * k.diff a b = |k.diff a b| := by
        rcases lt_or_gt_of_ne hne with h | h
        · rw [sgn_neg h, abs_of_neg h]; simp
        · rw [sgn_pos h, abs_of_pos h]; simp
      rcases eq_or_lt_of_le q0 with hz | hz
      · rw [← hz] at r0 r1 ⊢
        rw [le_antisymm r1 r0]
      · have hp : 0 < f.Q * sgn (k.diff a b) * k.diff a b := by
          rw [mul_assoc, hsg.2]
          exact mul_pos hz (abs_pos.mpr hne)
        rw [r4 hp, abs_mul, hsg.1, mul_one, abs_of_nonneg q0, min_self]
  · exact ⟨_, _, hdry hw, decide_eq_true_iff, rfl, rfl, fun _ => rfl, fun _ => rfl, fun _ h => absurd h hw⟩

/-- Any sequence of calls. If the initial smoothed difference and all differences lie between `lo` and `hi`, so does the smoothed
difference in the end; if none is negative inlet 0 is the inflow throughout, if all are negative inlet 1 is. -/
theorem C71_run {k : Kind} (hk : k.Good) (tau : ℝ) {lo hi : ℝ} (l : List (ℝ × Enq × Enq))
    (hl : ∀ x ∈ l, 0 ≤ x.2.1.head ∧ 0 ≤ x.2.2.head ∧ lo ≤ k.diff x.2.1 x.2.2 ∧ k.diff x.2.1 x.2.2 ≤ hi) :
    ∀ (d : ℝ) (s : Smooth), lo ≤ s.dE ∧ s.dE ≤ hi → ∃ os s', calls k tau l d s = some (os, s') ∧ os.length = l.length ∧
      lo ≤ s'.dE ∧ s'.dE ≤ hi ∧
      ∀ o ∈ os, 0 ≤ o.Q ∧ 0 ≤ o.vel ∧ o.vel ≤ 10 ∧ (k.closed = true → o.Q = 0) ∧ (k.closed = false →
        0 ≤ o.delta ∧ o.delta ≤ max hi (-lo) ∧ (0 ≤ lo → o.forward = true) ∧ (hi < 0 → o.forward = false)) := by
  induction l with
  | nil => exact fun d s hs => ⟨[], s, rfl, rfl, hs.1, hs.2, fun o ho => by cases ho⟩
  | cons x l ih =>
    obtain ⟨dt, a, b⟩ := x
    intro d s hs
    obtain ⟨ha, hb, hlo, hhi⟩ := hl _ List.mem_cons_self
    obtain ⟨o, s', hr, q0, v0, v1, m0, m1, hcl, hop⟩ := C71_step hk dt tau ha hb d s
    have hs' : lo ≤ s'.dE ∧ s'.dE ≤ hi := ⟨(le_min hs.1 hlo).trans m0, m1.trans (max_le hs.2 hhi)⟩
    obtain ⟨os, s'', hc, hlen, hs1, hs2, hall⟩ := ih (fun x hx => hl x (List.mem_cons_of_mem _ hx)) o.delta s' hs'
    refine ⟨o :: os, s'', ?_, by simp [hlen], hs1, hs2, ?_⟩
    · unfold calls
      rw [hr]
      simp only
      rw [hc]
    · intro o' ho'
      rcases List.mem_cons.mp ho' with rfl | ho'
      · refine ⟨q0, v0, v1, fun h => (hcl h).1, fun h => ?_⟩
        obtain ⟨h1, h2, -⟩ := hop h
        refine ⟨h2 ▸ abs_nonneg _, ?_, fun hh => h1.mpr (hh.trans hs'.1), fun hh => ?_⟩
        · rw [h2]
          exact abs_le'.mpr ⟨hs'.2.trans (le_max_left _ _), (neg_le_neg hs'.1).trans (le_max_right _ _)⟩
        · rw [← Bool.not_eq_true, h1]
          exact not_le.mpr (hs'.2.trans_lt hh)
      · exact hall o' ho'

/-- With levels held, the smoothed difference approaches the difference: the gap shrinks by the factor `1 - dt / tau` in each call. -/
theorem C71_relaxes {k : Kind} (hk : k.Good) (hc : k.closed = false) {dt tau : ℝ} (h0 : 0 < dt) (h1 : dt ≤ tau) (h2 : 1 / 10 ^ 6 ≤ tau)
    {a b : Enq} (ha : 0 ≤ a.head) (hb : 0 ≤ b.head) (n : ℕ) : ∀ (d : ℝ) (s : Smooth), ∃ os s',
      calls k tau (List.replicate n (dt, a, b)) d s = some (os, s') ∧
      s'.dE - k.diff a b = (1 - dt / tau) ^ n * (s.dE - k.diff a b) := by
  have hf : factor dt tau = dt / tau := by
    unfold factor
    rw [if_pos h0, max_eq_right h1, max_eq_left h2]
  induction n with
  | zero => exact fun d s => ⟨[], s, rfl, by simp⟩
  | succ n ih =>
    intro d s
    have hstep : ∃ o s', routine k dt tau a b d s = some (o, s') ∧ s'.dE = smoothEnergy s.dE (k.diff a b) (dt / tau) := by
      obtain ⟨hdry, hwet⟩ := routine_open hk hc dt tau ha hb d s
      rw [hf] at hdry hwet
      by_cases hw : (donor (decide (0 ≤ smoothEnergy s.dE (k.diff a b) (dt / tau))) a b).depth > 0.01
      · obtain ⟨f, -, -, -, hr⟩ := hwet hw
        exact ⟨_, _, hr, rfl⟩
      · exact ⟨_, _, hdry hw, rfl⟩
    obtain ⟨o, s', hr, hs'⟩ := hstep
    obtain ⟨os, s'', hc', he⟩ := ih o.delta s'
    refine ⟨o :: os, s'', ?_, ?_⟩
    · rw [List.replicate_succ]
      unfold calls
      rw [hr]
      simp only
      rw [hc']
    · rw [he, hs']
      unfold smoothEnergy
      ring

/-- The constructor stores the absolute value of the initial difference. So when the structure is set up with inlet 1 higher and smoothing
is on, then in the first step, with the levels as they were, water is moved from the lower inlet 0 to the higher inlet 1. -/
theorem C71_first_step_uphill {k : Kind} (hk : k.Good) (hcar : k.Carries) (hc : k.closed = false) {dt0 dt tau : ℝ} (hdt0 : dt0 ≤ 0)
    (hdt : 0 < dt) (htau : 2 * dt < tau) (h6 : 1 / 10 ^ 6 ≤ tau) {a b : Enq} (ha : 0 ≤ a.head) (hb : 0 ≤ b.head)
    (da : 0.01 < a.depth) (hab : k.diff a b < 0) :
    ∃ s o s' , start k dt0 a b = some s ∧ (∀ d, routine k dt tau a b d s = some (o, s')) ∧ o.forward = true ∧ 0 < o.Q := by
  have hf : factor dt tau = dt / tau := by
    unfold factor
    rw [if_pos hdt, max_eq_right (by linarith : dt ≤ tau), max_eq_left h6]
  have htau0 : 0 < tau := by linarith
  have hts : dt / tau < 1 / 2 := by rw [div_lt_div_iff₀ htau0 (by norm_num)]; linarith
  have hts0 : 0 < dt / tau := div_pos hdt htau0
  obtain ⟨o0, s0, hr0, -, -, hd0, -⟩ := C71_unsmoothed hk hc (tau := 0) (Or.inl hdt0) ha hb 0 ⟨0, 0⟩
  obtain ⟨o0', s0', hr0', q0, -⟩ := C71_step hk dt0 0 ha hb 0 ⟨0, 0⟩
  have hoo : o0' = o0 := by
    rw [hr0] at hr0'
    exact (Prod.mk.inj (Option.some.inj hr0')).1.symm
  rw [hoo] at q0
  have hst : start k dt0 a b = some ⟨|k.diff a b|, o0.Q⟩ := by
    unfold start
    rw [hr0]
    simp only [Option.bind_eq_bind, Option.bind_some, one_mul, hd0]
  have hneg : |k.diff a b| = -k.diff a b := abs_of_neg hab
  have he : smoothEnergy |k.diff a b| (k.diff a b) (factor dt tau) = -k.diff a b * (1 - 2 * (dt / tau)) := by
    unfold smoothEnergy; rw [hf, hneg]; ring
  have hepos : 0 < smoothEnergy |k.diff a b| (k.diff a b) (factor dt tau) := by
    rw [he]
    exact mul_pos (by linarith) (by linarith)
  have hdec : decide (0 ≤ smoothEnergy |k.diff a b| (k.diff a b) (factor dt tau)) = true := decide_eq_true hepos.le
  have key := fun d => routine_open hk hc dt tau ha hb d ⟨|k.diff a b|, o0.Q⟩
  simp only at key
  rw [hdec] at key
  have hdon : (donor true a b) = a := rfl
  rw [hdon] at key
  obtain ⟨f, hfn, fq, fA, -⟩ := (key 0).2 da
  have hall : ∀ d, routine k dt tau a b d ⟨|k.diff a b|, o0.Q⟩ = routine k dt tau a b 0 ⟨|k.diff a b|, o0.Q⟩ := by
    intro d
    obtain ⟨f', hfn', -, -, hr⟩ := (key d).2 da
    rw [hfn] at hfn'
    obtain rfl := Option.some.inj hfn'
    obtain ⟨f', hfn', -, -, hr'⟩ := (key 0).2 da
    rw [hfn] at hfn'
    obtain rfl := Option.some.inj hfn'
    rw [hr, hr']
  obtain ⟨f', hfn', -, -, hr⟩ := (key 0).2 da
  rw [hfn] at hfn'
  obtain rfl := Option.some.inj hfn'
  refine ⟨_, _, _, hst, fun d => (hall d).trans hr, ?_⟩
  · refine ⟨rfl, ?_⟩
    have hdrive : 0 < k.driving a := by
      unfold Kind.driving
      norm_num at da
      split_ifs <;> linarith
    have hQ : 0 < f.Q := hcar _ _ _ f hdrive (abs_pos.mpr hepos.ne') hfn
    obtain ⟨r0, r1, r2, r3, r4⟩ := smoothDischarge_spec (e := smoothEnergy |k.diff a b| (k.diff a b) (factor dt tau)) (sQ := o0.Q)
      (area := f.area) (ts := factor dt tau) fq
    have hsQ : 0 < (smoothDischarge (smoothEnergy |k.diff a b| (k.diff a b) (factor dt tau)) o0.Q f.Q f.area (factor dt tau)).1 := by
      show 0 < o0.Q + factor dt tau * (f.Q * sgn (smoothEnergy |k.diff a b| (k.diff a b) (factor dt tau)) - o0.Q)
      rw [sgn_pos hepos, hf, mul_one]
      have : 0 < dt / tau * f.Q := mul_pos hts0 hQ
      nlinarith
    refine lt_min ?_ (by positivity)
    rw [r4 (mul_pos hsQ hepos)]
    exact lt_min (abs_pos.mpr hsQ.ne') hQ

/-- A box and levels to which the theorems apply: inlet 1 is half a metre higher. -/
example : let k := (⟨⟨20, 1.5, 0.013⟩, 3, 2, 0.25, 2⟩ : Box).kind true
    let a : Enq := ⟨1, 1, 0⟩
    let b : Enq := ⟨1.5, 1.5, 0⟩
    k.Good ∧ k.Carries ∧ k.closed = false ∧ k.diff a b < 0 ∧ 0.01 < a.depth := by
  have h : (⟨⟨20, 1.5, 0.013⟩, 3, 2, 0.25, 2⟩ : Box).Ok :=
    ⟨⟨by norm_num, by norm_num, Or.inl (by norm_num)⟩, by norm_num, by norm_num, by norm_num, by norm_num⟩
  refine ⟨C71_structures.1 _ _ (Or.inl h), (C71_structures.2.2.2.1 _ _ h).1, (C71_structures.2.2.2.1 _ _ h).2, ?_, ?_⟩
  · show (if true = true then _ else _) < (0 : ℝ)
    norm_num
  · norm_num

end Verif.Culvert
