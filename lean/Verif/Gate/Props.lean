import Verif.Gate.Model

/-!
# C73: pumping stations. C74: the operator for internal boundaries
-/

namespace Verif.Gate

set_option linter.unusedSectionVars false

variable {K : Type*} [Field K] [LinearOrder K] [IsStrictOrderedRing K]

/-! ## Pumping stations -/

/-- The settings a pumping station accepts. -/
structure Pump.Ok (p : Pump K) : Prop where
  capacity : 0 ≤ p.capacity
  levels : p.stop ≤ p.start
  increase : 0 ≤ p.increase
  decrease : 0 ≤ p.decrease

/-- Times do not go back. -/
def Later (t0 : K) (l : List (K × K)) : Prop := (t0 :: l.map Prod.fst).IsChain (· ≤ ·)

/-- Last time of a list of calls. -/
def lastTime (t0 : K) (l : List (K × K)) : K := ((l.map Prod.fst).getLast?).getD t0

/-- A pumping station is set up exactly for a rate between 0 and the capacity, a starting level not below the stopping level, and rates of
change that are not negative. -/
theorem C73_init (p : Pump K) (rate t : K) (s : PumpState K) :
    p.init rate t = some s ↔ p.Ok ∧ 0 ≤ rate ∧ rate ≤ p.capacity ∧ s = ⟨rate, t⟩ := by
  unfold Pump.init
  constructor
  · intro h
    split_ifs at h with h1 h2 h3 h4
    push Not at h1 h2 h3 h4
    exact ⟨⟨h4.1, h1, h3.1, h3.2⟩, h4.2, h2, (Option.some.inj h).symm⟩
  · rintro ⟨⟨h1, h2, h3, h4⟩, h5, h6, rfl⟩
    rw [if_neg (not_lt.mpr h2), if_neg (not_lt.mpr h6), if_neg (by push Not; exact ⟨h3, h4⟩), if_neg (by push Not; exact ⟨h1, h5⟩)]

/-- One call. It fails exactly if time goes back. Otherwise the rate stays between 0 and the capacity, is unchanged between the stopping
and the starting level and if no time has passed, does not fall above the stopping level and does not rise below the starting level, and
changes by not more than the rates of change allow. -/
theorem C73_call {p : Pump K} (hp : p.Ok) {s : PumpState K} (h0 : 0 ≤ s.rate) (h1 : s.rate ≤ p.capacity) (t hw : K) :
    (t < s.last → p.call s t hw = none) ∧
    (s.last ≤ t → ∃ s', p.call s t hw = some s' ∧ s'.last = t ∧ 0 ≤ s'.rate ∧ s'.rate ≤ p.capacity ∧
      (p.stop ≤ hw → hw ≤ p.start → s'.rate = s.rate) ∧ (t = s.last → s'.rate = s.rate) ∧
      (p.stop ≤ hw → s.rate ≤ s'.rate) ∧ (hw ≤ p.start → s'.rate ≤ s.rate) ∧
      s'.rate ≤ s.rate + (t - s.last) * p.increase ∧ s.rate - (t - s.last) * p.decrease ≤ s'.rate) := by
  constructor
  · intro h
    unfold Pump.call
    exact if_pos ⟨not_lt.mpr h.le, h.ne⟩
  · intro h
    have hdt : (if t > s.last then t - s.last else 0) = t - s.last := by
      split_ifs with hx
      · rfl
      · rw [le_antisymm (not_lt.mp hx) h, sub_self]
    have hlast : (if t > s.last then t else s.last) = t := by
      split_ifs with hx
      · rfl
      · exact le_antisymm h (not_lt.mp hx)
    have hn : ¬ (¬ t > s.last ∧ t ≠ s.last) := fun ⟨a, b⟩ => b (le_antisymm (not_lt.mp a) h)
    have hd : 0 ≤ t - s.last := sub_nonneg.mpr h
    have hi := mul_nonneg hd hp.increase
    have hde := mul_nonneg hd hp.decrease
    have hl := hp.levels
    have hc := hp.capacity
    unfold Pump.call
    simp only
    rw [if_neg hn, hdt, hlast]
    refine ⟨_, rfl, rfl, ?_⟩
    simp only
    have hz : t = s.last → t - s.last = 0 := fun h => by rw [h, sub_self]
    split_ifs with hx hy
    · have hxs : ¬ p.stop ≤ hw := not_le.mpr hx
      refine ⟨le_max_left _ _, max_le hc (by linarith), fun h _ => absurd h hxs, fun h => ?_, fun h => absurd h hxs, fun _ => max_le h0 (by linarith),
        max_le (by linarith) (by linarith), le_max_right _ _⟩
      rw [hz h, zero_mul, sub_zero, max_eq_right h0]
    · have hys : ¬ hw ≤ p.start := not_le.mpr hy
      refine ⟨le_min hc (by linarith), min_le_left _ _, fun _ h => absurd h hys, fun h => ?_, fun _ => le_min h1 (by linarith), fun h => absurd h hys,
        min_le_right _ _, le_min (by linarith) (by linarith)⟩
      rw [hz h, zero_mul, add_zero, min_eq_right h1]
    · exact ⟨h0, h1, fun _ _ => rfl, fun _ => rfl, fun _ => le_rfl, fun _ => le_rfl, by linarith, by linarith⟩

theorem run_cons (p : Pump K) (s : PumpState K) (t hw : K) (l : List (K × K)) {s' : PumpState K} (h : p.call s t hw = some s') :
    p.run s ((t, hw) :: l) = p.run s' l := by
  conv_lhs => unfold Pump.run
  rw [h]

theorem later_cons {t0 : K} {x : K × K} {l : List (K × K)} : Later t0 (x :: l) ↔ t0 ≤ x.1 ∧ Later x.1 l := by
  unfold Later
  simp only [List.map_cons, List.isChain_cons_cons]

theorem lastTime_cons (t0 : K) (x : K × K) (l : List (K × K)) : lastTime t0 (x :: l) = lastTime x.1 l := by
  unfold lastTime
  cases l with
  | nil => rfl
  | cons y l =>
    simp only [List.map_cons, List.getLast?_cons_cons]
    rw [List.getLast?_eq_some_getLast (List.cons_ne_nil _ _)]
    rfl

/-- Any sequence of calls at times that do not go back. -/
theorem C73_run {p : Pump K} (hp : p.Ok) (l : List (K × K)) : ∀ {s : PumpState K}, 0 ≤ s.rate → s.rate ≤ p.capacity → Later s.last l →
    ∃ s', p.run s l = some s' ∧ s'.last = lastTime s.last l ∧ 0 ≤ s'.rate ∧ s'.rate ≤ p.capacity ∧
      s'.rate ≤ s.rate + (lastTime s.last l - s.last) * p.increase ∧ s.rate - (lastTime s.last l - s.last) * p.decrease ≤ s'.rate ∧
      ((∀ x ∈ l, p.stop ≤ x.2 ∧ x.2 ≤ p.start) → s'.rate = s.rate) ∧
      ((∀ x ∈ l, p.start < x.2) → s'.rate = min p.capacity (s.rate + (lastTime s.last l - s.last) * p.increase)) ∧
      ((∀ x ∈ l, x.2 < p.stop) → s'.rate = max 0 (s.rate - (lastTime s.last l - s.last) * p.decrease)) := by
  induction l with
  | nil =>
    intro s h0 h1 _
    refine ⟨s, rfl, rfl, h0, h1, ?_, ?_, fun _ => rfl, fun _ => ?_, fun _ => ?_⟩
    · show s.rate ≤ s.rate + (s.last - s.last) * p.increase
      rw [sub_self, zero_mul, add_zero]
    · show s.rate - (s.last - s.last) * p.decrease ≤ s.rate
      rw [sub_self, zero_mul, sub_zero]
    · show s.rate = min p.capacity (s.rate + (s.last - s.last) * p.increase)
      rw [sub_self, zero_mul, add_zero, min_eq_right h1]
    · show s.rate = max 0 (s.rate - (s.last - s.last) * p.decrease)
      rw [sub_self, zero_mul, sub_zero, max_eq_right h0]
  | cons x l ih =>
    obtain ⟨t, hw⟩ := x
    intro s h0 h1 hlat
    obtain ⟨ht, hlat'⟩ := later_cons.mp hlat
    obtain ⟨s1, hc, hl1, r0, r1, r2, -, -, -, r3, r4⟩ := (C73_call hp h0 h1 t hw).2 ht
    have hlat1 : Later s1.last l := by rw [hl1]; exact hlat'
    obtain ⟨s', hr, hls, q0, q1, q2, q3, q4, q5, q6⟩ := ih r0 r1 hlat1
    have htm : lastTime s.last ((t, hw) :: l) = lastTime s1.last l := by rw [lastTime_cons, hl1]
    refine ⟨s', (run_cons p s t hw l hc).trans hr, ?_, q0, q1, ?_, ?_, ?_, ?_, ?_⟩
    · rw [htm, hls]
    · rw [htm, hl1]
      rw [hl1] at q2
      linarith
    · rw [htm, hl1]
      rw [hl1] at q3
      linarith
    · intro h
      rw [q4 fun x hx => h x (List.mem_cons_of_mem _ hx)]
      exact r2 (h _ List.mem_cons_self).1 (h _ List.mem_cons_self).2
    · intro h
      rw [q5 fun x hx => h x (List.mem_cons_of_mem _ hx), htm]
      have hx := h _ List.mem_cons_self
      have e : s1.rate = min p.capacity (s.rate + (t - s.last) * p.increase) := by
        unfold Pump.call at hc
        have hn : ¬ (¬ t > s.last ∧ t ≠ s.last) := fun ⟨a, b⟩ => b (le_antisymm (not_lt.mp a) ht)
        simp only at hc
        rw [if_neg hn] at hc
        rw [← Option.some.inj hc]
        simp only
        rw [if_neg (not_lt.mpr (hp.levels.trans hx.le)), if_pos hx]
        split_ifs with hy
        · rfl
        · rw [le_antisymm (not_lt.mp hy) ht, sub_self]
      have hi : 0 ≤ (lastTime s1.last l - s1.last) * p.increase := by
        have h1 : s1.last ≤ lastTime s1.last l := by
          have : ∀ (l : List (K × K)) (t0 : K), Later t0 l → t0 ≤ lastTime t0 l := by
            intro l
            induction l with
            | nil => exact fun t0 _ => le_refl t0
            | cons y l ih => exact fun t0 h => by rw [lastTime_cons]; exact (later_cons.mp h).1.trans (ih y.1 (later_cons.mp h).2)
          exact this l s1.last hlat1
        exact mul_nonneg (sub_nonneg.mpr h1) hp.increase
      rw [e, hl1]
      rw [hl1] at hi
      rcases le_total p.capacity (s.rate + (t - s.last) * p.increase) with hle | hle
      · rw [min_eq_left hle, min_eq_left (by linarith), min_eq_left (by linarith)]
      · rw [min_eq_right hle]
        congr 1
        ring
    · intro h
      rw [q6 fun x hx => h x (List.mem_cons_of_mem _ hx), htm]
      have hx := h _ List.mem_cons_self
      have e : s1.rate = max 0 (s.rate - (t - s.last) * p.decrease) := by
        unfold Pump.call at hc
        have hn : ¬ (¬ t > s.last ∧ t ≠ s.last) := fun ⟨a, b⟩ => b (le_antisymm (not_lt.mp a) ht)
        simp only at hc
        rw [if_neg hn] at hc
        rw [← Option.some.inj hc]
        simp only
        rw [if_pos hx]
        split_ifs with hy
        · rfl
        · rw [le_antisymm (not_lt.mp hy) ht, sub_self]
      have hi : 0 ≤ (lastTime s1.last l - s1.last) * p.decrease := by
        have h1 : s1.last ≤ lastTime s1.last l := by
          have : ∀ (l : List (K × K)) (t0 : K), Later t0 l → t0 ≤ lastTime t0 l := by
            intro l
            induction l with
            | nil => exact fun t0 _ => le_refl t0
            | cons y l ih => exact fun t0 h => by rw [lastTime_cons]; exact (later_cons.mp h).1.trans (ih y.1 (later_cons.mp h).2)
          exact this l s1.last hlat1
        exact mul_nonneg (sub_nonneg.mpr h1) hp.decrease
      rw [e, hl1]
      rw [hl1] at hi
      rcases le_total (s.rate - (t - s.last) * p.decrease) 0 with hle | hle
      · rw [max_eq_left hle, max_eq_left (by linarith), max_eq_left (by linarith)]
      · rw [max_eq_right hle]
        congr 1
        ring

/-- A pump that starts above level 2, keeps on between 1 and 2 and stops below 1. -/
example : let p : Pump ℚ := ⟨10, 2, 1, 1, 2⟩
    p.Ok ∧ Later 0 [(3, (5 / 2 : ℚ)), (4, 3 / 2), (4, 1 / 2), (6, 1 / 2)] ∧
      (p.run ⟨0, 0⟩ [(3, (5 / 2 : ℚ)), (4, 3 / 2)]).map PumpState.rate = some 3 ∧
      (p.run ⟨0, 0⟩ [(3, (5 / 2 : ℚ)), (4, 3 / 2), (5, 1 / 2)]).map PumpState.rate = some 1 := by
  refine ⟨⟨?_, ?_, ?_, ?_⟩, ?_, ?_, ?_⟩ <;> first | decide +kernel | (unfold Later; decide +kernel)

end Verif.Gate
