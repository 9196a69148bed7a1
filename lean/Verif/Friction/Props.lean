import Verif.Friction.Spec
import Verif.Quantity.Props

/-!
# C16 friction only slows the flow, C47 parallel friction loops
-/

set_option linter.unusedSectionVars false

namespace Verif.Friction

variable {K : Type*} [Field K] [LinearOrder K] [IsStrictOrderedRing K]

/-- Both routines add one rate times the momentum; the rate follows Manning's law where friction is active and is zero
elsewhere. -/
theorem C16_manning_law (c : FC K) (hc : Physical c) (b : Bool) (d : Cell K) (u : K × K) :
    ∃ r, friction c b d u = (u.1 + r * d.uh, u.2 + r * d.vh) ∧
      (Active c d (bedOf b d) → Manning c (d.w - bedOf b d) d.eta (slopeOf c b d) (c.sqrt (d.uh * d.uh + d.vh * d.vh)) r) ∧
      (¬ Active c d (bedOf b d) → r = 0) ∧ r ≤ 0 := by
  have hsq : 0 ≤ slopeOf c b d := by
    unfold slopeOf
    split_ifs
    · exact hc.sqrt _
    · exact zero_le_one
  by_cases ha : Active c d (bedOf b d)
  · have hh : 0 < d.w - bedOf b d := lt_of_lt_of_le hc.eps ha.2
    have hp := hc.pow _ hh
    refine ⟨-c.g * d.eta * d.eta * slopeOf c b d * c.sqrt (d.uh * d.uh + d.vh * d.vh) / c.pow73 (d.w - bedOf b d), ?_, ?_, ?_, ?_⟩
    · cases b
      · have h1 : d.eta > c.eps := ha.1
        have h2 : d.w - d.z ≥ c.eps := ha.2
        simp [friction, flat, h1, h2, bedOf, slopeOf]
      · have h1 : d.eta > c.eps := ha.1
        have h2 : d.w - (d.z0 + d.z1 + d.z2) * (1 / 3) ≥ c.eps := ha.2
        simp only [friction, sloped, h1, h2, bedOf, slopeOf, if_true]
    · intro _
      unfold Manning
      rw [div_mul_cancel₀ _ hp.ne']
      ring
    · intro h; exact absurd ha h
    · refine div_nonpos_of_nonpos_of_nonneg ?_ hp.le
      have : -c.g * d.eta * d.eta * slopeOf c b d * c.sqrt (d.uh * d.uh + d.vh * d.vh) =
        -(c.g * (d.eta * d.eta) * slopeOf c b d * c.sqrt (d.uh * d.uh + d.vh * d.vh)) := by ring
      rw [this, neg_nonpos]
      exact mul_nonneg (mul_nonneg (mul_nonneg hc.g (mul_self_nonneg _)) hsq) (hc.sqrt _)
  · refine ⟨0, ?_, fun h => absurd h ha, fun _ => rfl, le_refl _⟩
    have hn : ¬ (c.eps < d.eta ∧ c.eps ≤ d.w - bedOf b d) := ha
    cases b
    · simp only [friction, flat, bedOf, Bool.false_eq_true, if_false] at hn ⊢
      split_ifs with h1 h2
      · exact absurd ⟨h1, h2⟩ hn
      · simp
      · simp
    · simp only [friction, sloped, bedOf, if_true] at hn ⊢
      split_ifs with h1 h2
      · exact absurd ⟨h1, h2⟩ hn
      · simp
      · simp

/-- C16: the friction update never fails, and each new momentum component has the sign of, and is not larger than, its
explicit prediction. -/
theorem C16_friction_only_slows (c : FC K) (hc : Physical c) (b : Bool) (dt : K) (hdt : 0 ≤ dt)
    (cells : List (Cell K × K × K)) :
    (advance c b dt cells).1.1 = true ∧ (advance c b dt cells).2.1 = true ∧
    List.Forall₂ (fun d y => 0 ≤ y.c * (d.1.uh + dt * d.2.1) ∧ |y.c| ≤ |d.1.uh + dt * d.2.1|) cells (advance c b dt cells).1.2 ∧
    List.Forall₂ (fun d y => 0 ≤ y.c * (d.1.vh + dt * d.2.2) ∧ |y.c| ≤ |d.1.vh + dt * d.2.2|) cells (advance c b dt cells).2.2 := by
  have hx := Quantity.C09_damping_is_safe dt
    (cells.map (fun d => (⟨d.1.uh, d.2.1, (friction c b d.1 (0, 0)).1⟩ : Quantity.Cell K))) hdt (by
      intro x hx
      rw [List.mem_map] at hx
      obtain ⟨d, _, rfl⟩ := hx
      obtain ⟨r, h1, _, _, h4⟩ := C16_manning_law c hc b d.1 (0, 0)
      simp only [h1, zero_add]
      have : r * d.1.uh * d.1.uh = r * (d.1.uh * d.1.uh) := by ring
      rw [this]
      exact mul_nonpos_of_nonpos_of_nonneg h4 (mul_self_nonneg _))
  have hy := Quantity.C09_damping_is_safe dt
    (cells.map (fun d => (⟨d.1.vh, d.2.2, (friction c b d.1 (0, 0)).2⟩ : Quantity.Cell K))) hdt (by
      intro x hx
      rw [List.mem_map] at hx
      obtain ⟨d, _, rfl⟩ := hx
      obtain ⟨r, h1, _, _, h4⟩ := C16_manning_law c hc b d.1 (0, 0)
      simp only [h1, zero_add]
      have : r * d.1.vh * d.1.vh = r * (d.1.vh * d.1.vh) := by ring
      rw [this]
      exact mul_nonpos_of_nonpos_of_nonneg h4 (mul_self_nonneg _))
  refine ⟨hx.1, hy.1, ?_, ?_⟩
  · have := hx.2
    rw [List.forall₂_map_left_iff] at this
    exact this
  · have := hy.2
    rw [List.forall₂_map_left_iff] at this
    exact this

/-- C16: the new momentum solves the implicit friction equation with the rate given by Manning's law at the old state; both
components use the same rate. -/
theorem C16_friction_solves (c : FC K) (hc : Physical c) (b : Bool) (dt : K) (hdt : 0 ≤ dt)
    (cells : List (Cell K × K × K)) (i : ℕ) (d : Cell K × K × K) (x y : Quantity.Cell K) (hi : cells[i]? = some d)
    (hx : (advance c b dt cells).1.2[i]? = some x) (hy : (advance c b dt cells).2.2[i]? = some y) :
    ∃ r, r ≤ 0 ∧
      (Active c d.1 (bedOf b d.1) →
        Manning c (d.1.w - bedOf b d.1) d.1.eta (slopeOf c b d.1) (c.sqrt (d.1.uh * d.1.uh + d.1.vh * d.1.vh)) r) ∧
      (¬ Active c d.1 (bedOf b d.1) → r = 0) ∧
      (d.1.uh ≠ 0 → x.c = d.1.uh + dt * d.2.1 + dt * (r * x.c)) ∧ (d.1.uh = 0 → x.c = dt * d.2.1) ∧
      (d.1.vh ≠ 0 → y.c = d.1.vh + dt * d.2.2 + dt * (r * y.c)) ∧ (d.1.vh = 0 → y.c = dt * d.2.2) := by
  obtain ⟨s1, s2, _, _⟩ := C16_friction_only_slows c hc b dt hdt cells
  have f1 := Quantity.C09_update_solves dt _ s1
  have f2 := Quantity.C09_update_solves dt _ s2
  rw [List.forall₂_map_left_iff] at f1 f2
  have g1 := (List.forall₂_iff_get.1 f1).2
  have g2 := (List.forall₂_iff_get.1 f2).2
  rw [List.getElem?_eq_some_iff] at hi hx hy
  obtain ⟨h1, e1⟩ := hi
  obtain ⟨h2, e2⟩ := hx
  obtain ⟨h3, e3⟩ := hy
  have a1 : Quantity.Solves dt d.1.uh d.2.1 (friction c b d.1 (0, 0)).1 x.c := by
    rw [← e1, ← e2]; exact (g1 i h1 h2).1
  have a2 : Quantity.Solves dt d.1.vh d.2.2 (friction c b d.1 (0, 0)).2 y.c := by
    rw [← e1, ← e3]; exact (g2 i h1 h3).1
  obtain ⟨r, k1, k2, k3, k4⟩ := C16_manning_law c hc b d.1 (0, 0)
  refine ⟨r, k4, k2, k3, ?_, ?_, ?_, ?_⟩
  · intro hne
    unfold Quantity.Solves at a1
    simp only [k1, zero_add, hne, if_false] at a1
    rw [mul_div_cancel_right₀ _ hne] at a1
    linear_combination a1
  · intro h0
    unfold Quantity.Solves at a1
    simp only [h0, if_true] at a1
    rw [a1]; ring
  · intro hne
    unfold Quantity.Solves at a2
    simp only [k1, zero_add, hne, if_false] at a2
    rw [mul_div_cancel_right₀ _ hne] at a2
    linear_combination a2
  · intro h0
    unfold Quantity.Solves at a2
    simp only [h0, if_true] at a2
    rw [a2]; ring

/-- C16: without other forces the flow keeps its direction: both components shrink by one common factor in `(0, 1]`. -/
theorem C16_direction_kept (c : FC K) (hc : Physical c) (b : Bool) (dt : K) (hdt : 0 ≤ dt)
    (cells : List (Cell K × K × K)) (i : ℕ) (d : Cell K × K × K) (x y : Quantity.Cell K) (hi : cells[i]? = some d)
    (he : d.2 = (0, 0))
    (hx : (advance c b dt cells).1.2[i]? = some x) (hy : (advance c b dt cells).2.2[i]? = some y) :
    ∃ θ, 0 < θ ∧ θ ≤ 1 ∧ x.c = θ * d.1.uh ∧ y.c = θ * d.1.vh := by
  obtain ⟨r, h0, _, _, h1, h2, h3, h4⟩ := C16_friction_solves c hc b dt hdt cells i d x y hi hx hy
  have hr : 1 ≤ 1 - dt * r := by
    have := mul_nonpos_of_nonneg_of_nonpos hdt h0
    linarith
  have hpos : 0 < 1 - dt * r := by linarith
  rw [he] at h1 h2 h3 h4
  refine ⟨1 / (1 - dt * r), by positivity, ?_, ?_, ?_⟩
  · rw [div_le_one hpos]; exact hr
  · by_cases hz : d.1.uh = 0
    · rw [h2 hz, hz]; ring
    · have := h1 hz
      rw [div_mul_eq_mul_div, one_mul, eq_div_iff hpos.ne']
      linear_combination this
  · by_cases hz : d.1.vh = 0
    · rw [h4 hz, hz]; ring
    · have := h3 hz
      rw [div_mul_eq_mul_div, one_mul, eq_div_iff hpos.ne']
      linear_combination this

/-- C16: over a flat triangle the sloped law is the flat law. -/
theorem C16_sloped_on_level_bed (c : FC K) (h1 : c.sqrt 1 = 1) (d : Cell K) (e0 : d.z0 = d.z) (e1 : d.z1 = d.z)
    (e2 : d.z2 = d.z) (u : K × K) : friction c true d u = friction c false d u := by
  have hz : (d.z + d.z + d.z) * (1 / 3) = d.z := by ring
  simp only [friction, sloped, flat, Quantity.gradient, e0, e1, e2, hz, sub_self, mul_zero, zero_div, add_zero, h1, mul_one,
    if_true, Bool.false_eq_true, if_false]

/-! ## C47 -/

section parallel

variable {N : ℕ} {σ ρ : Type*}

theorem Par.run_append (ops : List (Fin N → σ → ρ → σ × ρ)) (s : Par N σ ρ) (a b : List (Fin N)) :
    Par.run ops s (a ++ b) = Par.run ops (Par.run ops s a) b := by
  unfold Par.run
  rw [List.foldl_append]

theorem flatFinish_eq (c : FC K) (d : Cell K) (u : K × K) :
    flatFinish c d (c.sqrt (d.uh * d.uh + d.vh * d.vh)) u = flat c d u := by
  unfold flatFinish flat
  by_cases h1 : d.eta > c.eps
  · by_cases h2 : d.w - d.z ≥ c.eps
    · simp only [h1, h2, if_true]
    · simp only [h1, h2, if_true, if_false, zero_mul, add_zero]
  · simp only [h1, if_false, zero_mul, add_zero]

theorem slopedFinish_eq (c : FC K) (d : Cell K) (l : Loc K) (u : K × K) (hx0 : l.x0 = d.x0) (hy0 : l.y0 = d.y0)
    (hx1 : l.x1 = d.x1) (hy1 : l.y1 = d.y1) (hx2 : l.x2 = d.x2) (hy2 : l.y2 = d.y2) (z : K)
    (hz : d.eta > c.eps → z = (d.z0 + d.z1 + d.z2) * (1 / 3)) : slopedFinish c d l z u = sloped c d u := by
  unfold slopedFinish sloped
  by_cases h1 : d.eta > c.eps
  · rw [hx0, hy0, hx1, hy1, hx2, hy2, hz h1]
    by_cases h2 : d.w - (d.z0 + d.z1 + d.z2) * (1 / 3) ≥ c.eps
    · simp only [h1, h2, if_true]
    · simp only [h1, h2, if_true, if_false, zero_mul, add_zero]
  · simp only [h1, if_false, zero_mul, add_zero]

theorem flatFinish_rate (c : FC K) (hc : Physical c) (d : Cell K) (m : K) (hm : 0 ≤ m) (u : K × K) :
    ∃ r, r ≤ 0 ∧ flatFinish c d m u = (u.1 + r * d.uh, u.2 + r * d.vh) := by
  unfold flatFinish
  refine ⟨_, ?_, rfl⟩
  split_ifs with h1 h2
  · have hp := hc.pow _ (lt_of_lt_of_le hc.eps h2)
    refine div_nonpos_of_nonpos_of_nonneg ?_ hp.le
    have : -c.g * d.eta * d.eta * m = -(c.g * (d.eta * d.eta) * m) := by ring
    rw [this, neg_nonpos]
    exact mul_nonneg (mul_nonneg hc.g (mul_self_nonneg _)) hm
  · exact le_refl _
  · exact le_refl _

theorem slopedFinish_rate (c : FC K) (hc : Physical c) (d : Cell K) (l : Loc K) (z : K) (u : K × K) :
    ∃ r, r ≤ 0 ∧ slopedFinish c d l z u = (u.1 + r * d.uh, u.2 + r * d.vh) := by
  unfold slopedFinish
  refine ⟨_, ?_, rfl⟩
  split_ifs with h1 h2
  · have hp := hc.pow _ (lt_of_lt_of_le hc.eps h2)
    refine div_nonpos_of_nonpos_of_nonneg ?_ hp.le
    have : ∀ a b : K, -c.g * d.eta * d.eta * a * b = -(c.g * (d.eta * d.eta) * a * b) := by intros; ring
    rw [this, neg_nonpos]
    exact mul_nonneg (mul_nonneg (mul_nonneg hc.g (mul_self_nonneg _)) (hc.sqrt _)) (hc.sqrt _)
  · exact le_refl _
  · exact le_refl _

/-- All updates of the loop so far oppose the motion. -/
def Damped (cells : Fin N → Cell K) (xu yu : Fin N → K) (s : Par N σ (Loc K)) : Prop :=
  ∀ k, ∃ r, r ≤ 0 ∧ (s.loc k).xu = xu k + r * (cells k).uh ∧ (s.loc k).yu = yu k + r * (cells k).vh

/-- C47, what survives: whatever the thread schedule, the parallel flat routine only adds rates that oppose the motion of the
triangle. Missing: that the rate is Manning's. -/
theorem C47_flat_partial (c : FC K) (hc : Physical c) (cells : Fin N → Cell K) (xu yu : Fin N → K) (m0 : K)
    (sched : List (Fin N)) : Damped cells xu yu (Par.run (flatOps c cells) (start m0 xu yu) sched) := by
  have key : ∀ s : Par N K (Loc K), (Damped cells xu yu s ∧ (∀ k, (s.pc k = 0 → (s.loc k).xu = xu k ∧ (s.loc k).yu = yu k) ∧
      (s.pc k = 1 → (s.loc k).xu = xu k ∧ (s.loc k).yu = yu k)) ∧ ((∃ k, s.pc k ≠ 0) → 0 ≤ s.sh)) → ∀ sched,
      Damped cells xu yu (Par.run (flatOps c cells) s sched) := by
    intro s hs sched
    induction sched generalizing s with
    | nil => exact hs.1
    | cons k ks ih =>
      refine ih (Par.step (flatOps c cells) s k) ?_
      obtain ⟨i1, i2, i3⟩ := hs
      unfold Par.step
      rcases hp : s.pc k with _ | _ | n
      · -- store
        simp only [flatOps, List.getElem?_cons_zero]
        refine ⟨?_, ?_, fun _ => hc.sqrt _⟩
        · intro j
          by_cases hj : j = k
          · subst hj; simpa using i1 j
          · simpa [Function.update_of_ne hj] using i1 j
        · intro j
          by_cases hj : j = k
          · subst hj
            simpa using ((i2 j).1 hp)
          · simpa [Function.update_of_ne hj] using i2 j
      · -- finish
        simp only [flatOps, zero_add, List.getElem?_cons_succ, List.getElem?_cons_zero]
        obtain ⟨r, h0, h1⟩ := flatFinish_rate c hc (cells k) s.sh (i3 ⟨k, by omega⟩) ((s.loc k).xu, (s.loc k).yu)
        obtain ⟨e1, e2⟩ := (i2 k).2 hp
        refine ⟨?_, ?_, fun _ => i3 ⟨k, by omega⟩⟩
        · intro j
          by_cases hj : j = k
          · subst hj
            refine ⟨r, h0, ?_, ?_⟩
            · rw [e1, e2] at h1
              simp [h1, e1, e2]
            · rw [e1, e2] at h1
              simp [h1, e1, e2]
          · simpa [Function.update_of_ne hj] using i1 j
        · intro j
          by_cases hj : j = k
          · subst hj
            simp
          · simpa [Function.update_of_ne hj] using i2 j
      · have : (flatOps c cells)[n + 1 + 1]? = none := by simp [flatOps]
        rw [this]
        exact ⟨i1, i2, i3⟩
  refine key _ ⟨?_, ?_, ?_⟩ sched
  · intro k; exact ⟨0, le_refl _, by simp [start], by simp [start]⟩
  · intro k; simp [start]
  · rintro ⟨k, hk⟩; exact absurd rfl hk

/-- C47, what survives, sloped routine: only opposing rates are added, whatever the schedule. -/
theorem C47_sloped_partial (c : FC K) (hc : Physical c) (cells : Fin N → Cell K) (xu yu : Fin N → K) (m0 : Fin N × K)
    (sched : List (Fin N)) : Damped cells xu yu (Par.run (slopedOps c cells) (start m0 xu yu) sched) := by
  have key : ∀ s : Par N (Fin N × K) (Loc K), (Damped cells xu yu s ∧ (∀ k, s.pc k ≤ 3 →
      (s.loc k).xu = xu k ∧ (s.loc k).yu = yu k)) → ∀ sched, Damped cells xu yu (Par.run (slopedOps c cells) s sched) := by
    intro s hs sched
    induction sched generalizing s with
    | nil => exact hs.1
    | cons k ks ih =>
      refine ih (Par.step (slopedOps c cells) s k) ?_
      obtain ⟨i1, i2⟩ := hs
      have quiet : ∀ (sh : Fin N × K) (l : Loc K) (n : ℕ), l.xu = (s.loc k).xu → l.yu = (s.loc k).yu → s.pc k ≤ 2 →
          Damped cells xu yu (⟨sh, Function.update s.loc k l, Function.update s.pc k n⟩ : Par N (Fin N × K) (Loc K)) ∧
          ∀ j, Function.update s.pc k n j ≤ 3 →
            (Function.update s.loc k l j).xu = xu j ∧ (Function.update s.loc k l j).yu = yu j := by
        intro sh l n h1 h2 h3
        refine ⟨?_, ?_⟩
        · intro j
          by_cases hj : j = k
          · subst hj; simpa [h1, h2] using i1 j
          · simpa [Function.update_of_ne hj] using i1 j
        · intro j
          by_cases hj : j = k
          · subst hj
            intro _
            simpa [h1, h2] using i2 j (by omega)
          · simpa [Function.update_of_ne hj] using i2 j
      unfold Par.step
      rcases hp : s.pc k with _ | _ | _ | _ | n
      · simp only [slopedOps, List.getElem?_cons_zero]
        exact quiet _ _ _ rfl rfl (by omega)
      · simp only [slopedOps, zero_add, List.getElem?_cons_succ, List.getElem?_cons_zero]
        exact quiet _ _ _ rfl rfl (by omega)
      · simp only [slopedOps, zero_add, List.getElem?_cons_succ, List.getElem?_cons_zero]
        exact quiet _ _ _ rfl rfl (by omega)
      · simp only [slopedOps, zero_add, List.getElem?_cons_succ, List.getElem?_cons_zero]
        obtain ⟨r, h0, h1⟩ := slopedFinish_rate c hc (cells k) (s.loc k) s.sh.2 ((s.loc k).xu, (s.loc k).yu)
        obtain ⟨e1, e2⟩ := i2 k (by omega)
        refine ⟨?_, ?_⟩
        · intro j
          by_cases hj : j = k
          · subst hj
            refine ⟨r, h0, ?_, ?_⟩
            · rw [e1, e2] at h1
              simp [h1, e1, e2]
            · rw [e1, e2] at h1
              simp [h1, e1, e2]
          · simpa [Function.update_of_ne hj] using i1 j
        · intro j
          by_cases hj : j = k
          · subst hj
            simp
          · simpa [Function.update_of_ne hj] using i2 j
      · have : (slopedOps c cells)[n + 1 + 1 + 1 + 1]? = none := by simp [slopedOps]
        rw [this]
        exact ⟨i1, i2⟩
  refine key _ ⟨?_, ?_⟩ sched
  · intro k; exact ⟨0, le_refl _, by simp [start], by simp [start]⟩
  · intro k; simp [start]

/-- C47, one thread: when the iterations run one after the other, in any order, the parallel flat routine gives the serial
result. -/
theorem C47_flat_one_thread (c : FC K) (cells : Fin N → Cell K) (xu yu : Fin N → K) (m0 : K) (order : List (Fin N))
    (hn : order.Nodup) (k : Fin N) (hk : k ∈ order) :
    let s := Par.run (flatOps c cells) (start m0 xu yu) (order.flatMap (fun j => [j, j]))
    ((s.loc k).xu, (s.loc k).yu) = friction c false (cells k) (xu k, yu k) := by
  have key : ∀ (order : List (Fin N)) (s : Par N K (Loc K)), order.Nodup → (∀ j ∈ order, s.pc j = 0) → ∀ k,
      let s' := Par.run (flatOps c cells) s (order.flatMap (fun j => [j, j]))
      (k ∈ order → ((s'.loc k).xu, (s'.loc k).yu) = flat c (cells k) ((s.loc k).xu, (s.loc k).yu)) ∧
        (k ∉ order → s'.loc k = s.loc k) := by
    intro order
    induction order with
    | nil => intro s _ _ k; exact ⟨by simp, fun _ => rfl⟩
    | cons j js ih =>
      intro s hn hp k
      have hj : s.pc j = 0 := hp j (by simp)
      have hstep : Par.run (flatOps c cells) s [j, j] =
          ⟨c.sqrt ((cells j).uh * (cells j).uh + (cells j).vh * (cells j).vh),
            Function.update s.loc j { s.loc j with
              xu := (flat c (cells j) ((s.loc j).xu, (s.loc j).yu)).1
              yu := (flat c (cells j) ((s.loc j).xu, (s.loc j).yu)).2 }, Function.update s.pc j 2⟩ := by
        simp [Par.run, Par.step, hj, flatOps, flatFinish_eq]
      have := ih (Par.run (flatOps c cells) s [j, j]) (List.nodup_cons.1 hn).2 (by
        intro i hi
        have hne : i ≠ j := by rintro rfl; exact (List.nodup_cons.1 hn).1 hi
        rw [hstep]
        simp only [Function.update_of_ne hne]
        exact hp i (by simp [hi])) k
      simp only [List.flatMap_cons] at this ⊢
      rw [Par.run_append]
      refine ⟨?_, ?_⟩
      · intro hk
        by_cases hkj : k = j
        · subst hkj
          rw [this.2 (List.nodup_cons.1 hn).1, hstep]
          simp
        · have hk' : k ∈ js := by simpa [hkj] using hk
          rw [this.1 hk', hstep]
          simp only [Function.update_of_ne hkj]
      · intro hk
        have hk2 : k ≠ j ∧ k ∉ js := by simpa using hk
        rw [this.2 hk2.2, hstep]
        simp only [Function.update_of_ne hk2.1]
  exact (key order (start m0 xu yu) hn (fun _ _ => rfl) k).1 hk

/-- C47, one thread, sloped routine. -/
theorem C47_sloped_one_thread (c : FC K) (cells : Fin N → Cell K) (xu yu : Fin N → K) (m0 : Fin N × K)
    (order : List (Fin N)) (hn : order.Nodup) (k : Fin N) (hk : k ∈ order) :
    let s := Par.run (slopedOps c cells) (start m0 xu yu) (order.flatMap (fun j => [j, j, j, j]))
    ((s.loc k).xu, (s.loc k).yu) = friction c true (cells k) (xu k, yu k) := by
  have key : ∀ (order : List (Fin N)) (s : Par N (Fin N × K) (Loc K)), order.Nodup → (∀ j ∈ order, s.pc j = 0) → ∀ k,
      let s' := Par.run (slopedOps c cells) s (order.flatMap (fun j => [j, j, j, j]))
      (k ∈ order → ((s'.loc k).xu, (s'.loc k).yu) = sloped c (cells k) ((s.loc k).xu, (s.loc k).yu)) ∧
        (k ∉ order → s'.loc k = s.loc k) := by
    intro order
    induction order with
    | nil => intro s _ _ k; exact ⟨by simp, fun _ => rfl⟩
    | cons j js ih =>
      intro s hn hp k
      have hj : s.pc j = 0 := hp j (by simp)
      have hstep : ∃ sh l, Par.run (slopedOps c cells) s [j, j, j, j] =
          ⟨sh, Function.update s.loc j l, Function.update s.pc j 4⟩ ∧
          (l.xu, l.yu) = sloped c (cells j) ((s.loc j).xu, (s.loc j).yu) := by
        let sh1 : Fin N × K :=
          if (cells j).eta > c.eps then (j, ((cells j).z0 + (cells j).z1 + (cells j).z2) * (1 / 3)) else (j, s.sh.2)
        let l1 : Loc K :=
          ⟨(s.loc j).xu, (s.loc j).yu, (cells j).x0, (cells j).y0, (cells j).x1, (cells j).y1, (cells j).x2, (cells j).y2⟩
        let r := slopedFinish c (cells j) l1 sh1.2 ((s.loc j).xu, (s.loc j).yu)
        refine ⟨sh1, { l1 with xu := r.1, yu := r.2 }, ?_, ?_⟩
        · simp [Par.run, Par.step, hj, slopedOps, r, sh1, l1]
        · rw [← slopedFinish_eq c (cells j) l1 _ rfl rfl rfl rfl rfl rfl sh1.2 (by intro h; simp only [sh1, if_pos h])]
      obtain ⟨sh, l, hstep, hl⟩ := hstep
      have := ih (Par.run (slopedOps c cells) s [j, j, j, j]) (List.nodup_cons.1 hn).2 (by
        intro i hi
        have hne : i ≠ j := by rintro rfl; exact (List.nodup_cons.1 hn).1 hi
        rw [hstep]
        simp only [Function.update_of_ne hne]
        exact hp i (by simp [hi])) k
      simp only [List.flatMap_cons] at this ⊢
      rw [Par.run_append]
      refine ⟨?_, ?_⟩
      · intro hk
        by_cases hkj : k = j
        · subst hkj
          rw [this.2 (List.nodup_cons.1 hn).1, hstep]
          simpa using hl
        · have hk' : k ∈ js := by simpa [hkj] using hk
          rw [this.1 hk', hstep]
          simp only [Function.update_of_ne hkj]
      · intro hk
        have hk2 : k ≠ j ∧ k ∉ js := by simpa using hk
        rw [this.2 hk2.2, hstep]
        simp only [Function.update_of_ne hk2.1]
  exact (key order (start m0 xu yu) hn (fun _ _ => rfl) k).1 hk

/-- Constants for examples. -/
def exC : FC ℚ := ⟨98 / 10, 1 / 100000, fun x => if x < 0 then 0 else (x + 1) / 2, fun h => h * h⟩

theorem exC_physical : Physical exC where
  g := by norm_num [exC]
  eps := by norm_num [exC]
  sqrt := by intro x; simp only [exC]; split_ifs with h <;> linarith
  pow := by intro h hh; simp only [exC]; positivity

def exCells : Fin 2 → Cell ℚ :=
  ![⟨2, 1, 3, 4, 1 / 10, 0, 0, 1, 0, 0, 1, 1, 1, 1⟩, ⟨5, 1, 1, -1, 1 / 20, 0, 0, 2, 0, 0, 2, 1, 3 / 2, 1 / 2⟩]

/-- C47: the parallel flat routine does not agree with the serial one. With two threads, one per triangle, there is a
schedule in which the first triangle is slowed with the speed of the second. -/
theorem C47_flat_not_serial : ∃ sched : List (Fin 2), Respects 2 (fun k => k.val) sched ∧ sched.length = 4 ∧
    let s := Par.run (flatOps exC exCells) (start 0 (fun _ => 0) (fun _ => 0)) sched
    (∀ k, s.pc k = 2) ∧ ((s.loc 0).xu, (s.loc 0).yu) ≠ friction exC false (exCells 0) (0, 0) := by
  refine ⟨[0, 1, 0, 1], ?_, rfl, ?_⟩
  · intro pre k post _ j hj ht
    exact absurd (Fin.ext ht) (ne_of_lt hj)
  · decide +kernel

/-- C47: the same for the sloped routine: the first triangle is slowed using the bed level of the second. -/
theorem C47_sloped_not_serial : ∃ sched : List (Fin 2), Respects 4 (fun k => k.val) sched ∧ sched.length = 8 ∧
    let s := Par.run (slopedOps exC (fun k => { exCells k with z0 := k.val })) (start (0, 0) (fun _ => 0) (fun _ => 0)) sched
    (∀ k, s.pc k = 4) ∧
      ((s.loc 0).xu, (s.loc 0).yu) ≠ friction exC true { exCells 0 with z0 := 0 } (0, 0) := by
  refine ⟨[0, 0, 0, 1, 1, 1, 0, 1], ?_, rfl, ?_⟩
  · intro pre k post _ j hj ht
    exact absurd (Fin.ext ht) (ne_of_lt hj)
  · decide +kernel

/-- The hypotheses of the C16 theorems hold on a moving flow and the momentum really shrinks. -/
example : Physical exC ∧ Active exC (exCells 0) (bedOf false (exCells 0)) ∧ Active exC (exCells 1) (bedOf true (exCells 1)) ∧
    (advance exC false 1 [(exCells 0, 0, 0), (exCells 1, 1, 0)]).1.1 = true ∧
    ((advance exC false 1 [(exCells 0, 0, 0), (exCells 1, 1, 0)]).1.2.map (fun x => decide (0 < x.c))) = [true, true] ∧
    ((advance exC false 1 [(exCells 0, 0, 0), (exCells 1, 1, 0)]).1.2.map (fun x => decide (x.c < 2))) = [true, true] :=
  ⟨exC_physical, by unfold Active; decide +kernel, by unfold Active; decide +kernel, by decide +kernel, by decide +kernel,
    by decide +kernel⟩

example : exC.sqrt 1 = 1 ∧ (exCells 0).z0 = (exCells 0).z ∧ (exCells 0).z1 = (exCells 0).z ∧ (exCells 0).z2 = (exCells 0).z := by
  decide +kernel

end parallel

end Verif.Friction
