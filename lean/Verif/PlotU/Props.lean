import Verif.PlotU.Lemmas

/-! # C100: values read from result files at the nodes -/

namespace Verif.PlotU

set_option linter.unusedSectionVars false

open Verif.Polygon (Pt IsSqrt)
open Verif.FileFn (Var)

variable {K : Type*} [Field K] [LinearOrder K] [IsStrictOrderedRing K]

/-- What a call that answers has found. -/
theorem getOutput_some {sq : K → K} {f : Sww K} {hmin : K} {s : Slices} {o : Out K} (h : getOutput sq f hmin s = some o) :
    ∃ st el xm ym, f.vars "stage" = some st ∧ f.vars "elevation" = some el ∧ f.vars "xmomentum" = some xm ∧ f.vars "ymomentum" = some ym ∧
      (∀ i ∈ (s.inds f.time.length).getD [0], i < f.time.length) ∧
      o = { time := times (s.inds f.time.length) f.time
            stage := select (s.inds f.time.length) largest f.time.length f.x.length fun i j => st.value i j
            elev := getInds (s.inds f.time.length) f.time.length f.x.length el
            height := select (s.inds f.time.length) largest f.time.length f.x.length (heightAt f (s.inds f.time.length) st el)
            xmom := select (s.inds f.time.length) furthest f.time.length f.x.length fun i j => xm.value i j
            ymom := select (s.inds f.time.length) furthest f.time.length f.x.length fun i j => ym.value i j
            xvel := select (s.inds f.time.length) furthest f.time.length f.x.length fun i j =>
              velocity hmin (xm.value i j) (heightAt f (s.inds f.time.length) st el i j)
            yvel := select (s.inds f.time.length) furthest f.time.length f.x.length fun i j =>
              velocity hmin (ym.value i j) (heightAt f (s.inds f.time.length) st el i j)
            vel := select (s.inds f.time.length) largest f.time.length f.x.length fun i j =>
              velocity hmin (sq (xm.value i j ^ 2 + ym.value i j ^ 2)) (heightAt f (s.inds f.time.length) st el i j)
            slices := s.inds f.time.length } := by
  unfold getOutput at h
  cases h1 : f.vars "stage" with
  | none => rw [h1] at h; simp at h
  | some st =>
    cases h2 : f.vars "elevation" with
    | none => rw [h1, h2] at h; simp at h
    | some el =>
      cases h3 : f.vars "xmomentum" with
      | none => rw [h1, h2, h3] at h; simp at h
      | some xm =>
        cases h4 : f.vars "ymomentum" with
        | none => rw [h1, h2, h3, h4] at h; simp at h
        | some ym =>
          rw [h1, h2, h3, h4] at h
          simp only at h
          by_cases hc : ((s.inds f.time.length).getD [0]).all (· < f.time.length) = true
          · rw [if_pos hc] at h
            refine ⟨st, el, xm, ym, rfl, rfl, rfl, rfl, ?_, (Option.some.inj h).symm⟩
            simpa using hc
          · rw [if_neg hc] at h
            simp at h

theorem speed_spec {sq : K → K} {hmin : K} (hsq : IsSqrt sq) (hh : 0 ≤ hmin) (u v d : K) :
    0 ≤ velocity hmin (sq (u ^ 2 + v ^ 2)) d ∧
      velocity hmin (sq (u ^ 2 + v ^ 2)) d ^ 2 = velocity hmin u d ^ 2 + velocity hmin v d ^ 2 := by
  have hs := hsq (u ^ 2 + v ^ 2) (by positivity)
  unfold velocity
  refine ⟨?_, ?_⟩
  · by_cases hd' : d > hmin
    · rw [if_pos hd']
      have hp : 0 < d + 1 / 10 ^ 12 := add_pos_of_pos_of_nonneg (hh.trans_lt hd') (by positivity)
      have := one_div_pos.mpr hp
      have := mul_nonneg hs.1 this.le
      simpa using this
    · rw [if_neg hd']
      simp
  · have e : ∀ a b c : K, (a * b * c) ^ 2 = a ^ 2 * (b * c) ^ 2 := fun a b c => by ring
    rw [e, e, e, ← add_mul]
    congr 1
    rw [pow_two, hs.2]

/-- **C100.** Named times: row `k` of every array holds the values of the file at the `k`-th of these times, in the order of the nodes: the stored
stage, bed and momentum; the depth (never negative); velocities that are momentum over depth; and a speed that is the length of the velocity. -/
theorem C100_rows {sq : K → K} {f : Sww K} {hmin : K} {s : Slices} {o : Out K} (hsq : IsSqrt sq) (hh : 0 ≤ hmin)
    (h : getOutput sq f hmin s = some o) {l : List ℕ} (hl : Chosen f.time.length l s) {k i j : ℕ} (hk : l[k]? = some i) (hj : j < f.x.length) :
    (∃ t, f.time[i]? = some t ∧ o.time[k]? = some t) ∧ (∀ a, f.Holds "stage" i j a → At o.stage k j a) ∧
    (∀ a, f.Holds "elevation" i j a → Stored k j a o.elev) ∧
    (∀ a, f.Holds "xmomentum" i j a → At o.xmom k j a) ∧ (∀ a, f.Holds "ymomentum" i j a → At o.ymom k j a) ∧
    (∀ d, Depth f i j d → At o.height k j d ∧
      ∀ u v, f.Holds "xmomentum" i j u → f.Holds "ymomentum" i j v → ∃ a b c, At o.xvel k j a ∧ At o.yvel k j b ∧ At o.vel k j c ∧
        Vel hmin u d a ∧ Vel hmin v d b ∧ 0 ≤ c ∧ c ^ 2 = a ^ 2 + b ^ 2) := by
  obtain ⟨st, el, xm, ym, h1, h2, h3, h4, hin, rfl⟩ := getOutput_some h
  have hi := chosen_inds hl
  rw [hi] at hin ⊢
  simp only [select]
  have him : i < f.time.length := hin i (List.mem_of_getElem? hk)
  refine ⟨⟨f.time[i], List.getElem?_eq_getElem him, ?_⟩, fun a ha => ?_, fun a ha => ?_, fun a ha => ?_, fun a ha => ?_, fun d hd => ⟨?_, ?_⟩⟩
  · simp [times, hk, List.getD, List.getElem?_eq_getElem him]
  · have := holds_value h1 ha
    rw [← this]
    exact at_table hk hj
  · obtain ⟨w, hw, ha⟩ := ha
    rw [h2] at hw
    obtain rfl := Option.some.inj hw
    cases el with
    | one v =>
      exact ha
    | two v =>
      have := stored_value ha
      simp only [Var.value] at this
      rw [← this]
      simp only [getInds, select, Stored]
      exact at_table hk hj
  · have := holds_value h3 ha
    rw [← this]
    exact at_table hk hj
  · have := holds_value h4 ha
    rw [← this]
    exact at_table hk hj
  · rw [← depth_height (inds := some l) h1 h2 (Or.inl rfl) hd]
    exact at_table hk hj
  · intro u v hu hv
    refine ⟨_, _, _, at_table hk hj, at_table hk hj, at_table hk hj, ?_, ?_, ?_⟩
    · rw [holds_value h3 hu, depth_height (inds := some l) h1 h2 (Or.inl rfl) hd]
      exact velocity_vel hh u d
    · rw [holds_value h4 hv, depth_height (inds := some l) h1 h2 (Or.inl rfl) hd]
      exact velocity_vel hh v d
    · rw [holds_value h3 hu, holds_value h4 hv, depth_height (inds := some l) h1 h2 (Or.inl rfl) hd]
      exact speed_spec hsq hh u v d

/-- **C100.** Every array has one row for each time asked for (one row for 'max') and one column for each node. -/
theorem C100_shape {sq : K → K} {f : Sww K} {hmin : K} {s : Slices} {o : Out K} (h : getOutput sq f hmin s = some o) :
    (∀ l, Chosen f.time.length l s → o.time.length = l.length ∧ ∀ A ∈ [o.stage, o.height, o.xmom, o.ymom, o.xvel, o.yvel, o.vel],
      Rect A l.length f.x.length) ∧
    (s = .max → o.time.length = 1 ∧ ∀ A ∈ [o.stage, o.height, o.xmom, o.ymom, o.xvel, o.yvel, o.vel], Rect A 1 f.x.length) := by
  obtain ⟨st, el, xm, ym, h1, h2, h3, h4, hin, rfl⟩ := getOutput_some h
  refine ⟨fun l hl => ?_, fun hs => ?_⟩
  · rw [chosen_inds hl]
    refine ⟨by simp [times], fun A hA => ?_⟩
    simp only [select, List.mem_cons, List.not_mem_nil, or_false] at hA
    rcases hA with rfl | rfl | rfl | rfl | rfl | rfl | rfl <;> exact rect_table _ _ _
  · subst hs
    refine ⟨by simp [times, Slices.inds], fun A hA => ?_⟩
    simp only [Slices.inds, select, List.mem_cons, List.not_mem_nil, or_false] at hA
    rcases hA with rfl | rfl | rfl | rfl | rfl | rfl | rfl <;> exact rect_overTime _ _ _ _

/-- `v` is the largest of the values `P` over the times before `m`. -/
def Peak (m : ℕ) (P : ℕ → K → Prop) (v : K) : Prop := (∃ i, i < m ∧ P i v) ∧ ∀ i a, i < m → P i a → a ≤ v

/-- `v` is a value of largest magnitude among the values `P` over the times before `m`. -/
def Swing (m : ℕ) (P : ℕ → K → Prop) (v : K) : Prop := (∃ i, i < m ∧ P i v) ∧ ∀ i a, i < m → P i a → |a| ≤ |v|

theorem peak_of {m n j : ℕ} {g : ℕ → ℕ → K} {P : ℕ → K → Prop} (hm : 0 < m) (hj : j < n) (hP : ∀ i a, i < m → P i a → g i j = a)
    (hP' : ∀ i, i < m → ∃ a, P i a) : ∃ v, At (overTime largest m n g) 0 j v ∧ Peak m P v := by
  refine ⟨_, at_overTime hj, ?_⟩
  obtain ⟨⟨i, hi, h1⟩, h2⟩ := largest_range hm fun i => g i j
  refine ⟨⟨i, hi, ?_⟩, fun i a hi ha => ?_⟩
  · obtain ⟨a, ha⟩ := hP' i hi
    rw [h1, hP i a hi ha]
    exact ha
  · rw [← hP i a hi ha]
    exact h2 i hi

theorem swing_of {m n j : ℕ} {g : ℕ → ℕ → K} {P : ℕ → K → Prop} (hm : 0 < m) (hj : j < n) (hP : ∀ i a, i < m → P i a → g i j = a)
    (hP' : ∀ i, i < m → ∃ a, P i a) : ∃ v, At (overTime furthest m n g) 0 j v ∧ Swing m P v := by
  refine ⟨_, at_overTime hj, ?_⟩
  obtain ⟨⟨i, hi, h1⟩, h2⟩ := furthest_range hm fun i => g i j
  refine ⟨⟨i, hi, ?_⟩, fun i a hi ha => ?_⟩
  · obtain ⟨a, ha⟩ := hP' i hi
    rw [h1, hP i a hi ha]
    exact ha
  · rw [← hP i a hi ha]
    exact h2 i hi

/-- Velocities and depths have one value. -/
theorem vel_unique {hmin u d a b : K} (hh : 0 ≤ hmin) (ha : Vel hmin u d a) (hb : Vel hmin u d b) : a = b := by
  rcases le_or_gt d hmin with h | h
  · rw [ha.1 h, hb.1 h]
  · have hp : 0 < d + 1 / 10 ^ 12 := add_pos_of_pos_of_nonneg (hh.trans_lt h) (by positivity)
    exact mul_right_cancel₀ hp.ne' ((ha.2 h).trans (hb.2 h).symm)

/-- **C100.** 'max': the single row holds, for every node, the largest stage of the file, the largest depth and the largest speed, and the
momentum and velocity components of largest magnitude with their sign. For the depth and what is derived from it the bed must be fixed or the
depth stored. -/
theorem C100_max {sq : K → K} {f : Sww K} {hmin : K} {o : Out K} (hsq : IsSqrt sq) (hh : 0 ≤ hmin) (h : getOutput sq f hmin .max = some o)
    {j : ℕ} (hj : j < f.x.length)
    (hfull : ∀ i, i < f.time.length → ∀ name ∈ ["stage", "xmomentum", "ymomentum"], ∃ a, f.Holds name i j a) :
    (∃ v, At o.stage 0 j v ∧ Peak f.time.length (fun i => f.Holds "stage" i j) v) ∧
    (∃ v, At o.xmom 0 j v ∧ Swing f.time.length (fun i => f.Holds "xmomentum" i j) v) ∧
    (∃ v, At o.ymom 0 j v ∧ Swing f.time.length (fun i => f.Holds "ymomentum" i j) v) ∧
    (Fixed f "elevation" ∨ (f.vars "height").isSome → (∀ i, i < f.time.length → ∃ d, Depth f i j d) →
      (∃ v, At o.height 0 j v ∧ Peak f.time.length (fun i => Depth f i j) v) ∧
      (∃ v, At o.xvel 0 j v ∧ Swing f.time.length (fun i a => ∃ d u, Depth f i j d ∧ f.Holds "xmomentum" i j u ∧ Vel hmin u d a) v) ∧
      (∃ v, At o.yvel 0 j v ∧ Swing f.time.length (fun i a => ∃ d u, Depth f i j d ∧ f.Holds "ymomentum" i j u ∧ Vel hmin u d a) v) ∧
      (∃ v, At o.vel 0 j v ∧ Peak f.time.length (fun i c => ∃ d u v a b, Depth f i j d ∧ f.Holds "xmomentum" i j u ∧ f.Holds "ymomentum" i j v ∧
        Vel hmin u d a ∧ Vel hmin v d b ∧ 0 ≤ c ∧ c ^ 2 = a ^ 2 + b ^ 2) v)) := by
  obtain ⟨st, el, xm, ym, h1, h2, h3, h4, hin, rfl⟩ := getOutput_some h
  simp only [Slices.inds, select]
  have hm : 0 < f.time.length := hin 0 (by simp [Slices.inds])
  refine ⟨?_, ?_, ?_, fun hfix hdep => ?_⟩
  · exact peak_of hm hj (fun i a _ ha => holds_value h1 ha) fun i hi => hfull i hi _ (by simp)
  · exact swing_of hm hj (fun i a _ ha => holds_value h3 ha) fun i hi => hfull i hi _ (by simp)
  · exact swing_of hm hj (fun i a _ ha => holds_value h4 ha) fun i hi => hfull i hi _ (by simp)
  · have hd : ∀ i d, Depth f i j d → heightAt f none st el i j = d := fun i d hd => depth_height h1 h2 (Or.inr hfix) hd
    refine ⟨?_, ?_, ?_, ?_⟩
    · exact peak_of hm hj (fun i a _ ha => hd i a ha) hdep
    · refine swing_of hm hj ?_ fun i hi => ?_
      · rintro i a - ⟨d, u, h5, h6, h7⟩
        rw [hd i d h5, holds_value h3 h6]
        exact vel_unique hh (velocity_vel hh u d) h7
      · obtain ⟨d, h5⟩ := hdep i hi
        obtain ⟨u, h6⟩ := hfull i hi "xmomentum" (by simp)
        exact ⟨_, d, u, h5, h6, velocity_vel hh u d⟩
    · refine swing_of hm hj ?_ fun i hi => ?_
      · rintro i a - ⟨d, u, h5, h6, h7⟩
        rw [hd i d h5, holds_value h4 h6]
        exact vel_unique hh (velocity_vel hh u d) h7
      · obtain ⟨d, h5⟩ := hdep i hi
        obtain ⟨u, h6⟩ := hfull i hi "ymomentum" (by simp)
        exact ⟨_, d, u, h5, h6, velocity_vel hh u d⟩
    · have key : ∀ u v d : K, 0 ≤ velocity hmin (sq (u ^ 2 + v ^ 2)) d ∧
          velocity hmin (sq (u ^ 2 + v ^ 2)) d ^ 2 = velocity hmin u d ^ 2 + velocity hmin v d ^ 2 := by
        intro u v d
        exact speed_spec hsq hh u v d
      refine peak_of hm hj ?_ fun i hi => ?_
      · rintro i c - ⟨d, u, v, a, b, h5, h6, h7, h8, h9, h10, h11⟩
        rw [hd i d h5, holds_value h3 h6, holds_value h4 h7]
        have := key u v d
        rw [vel_unique hh h8 (velocity_vel hh u d), vel_unique hh h9 (velocity_vel hh v d), ← this.2] at h11
        exact ((pow_left_inj₀ h10 this.1 two_ne_zero).mp h11).symm
      · obtain ⟨d, h5⟩ := hdep i hi
        obtain ⟨u, h6⟩ := hfull i hi "xmomentum" (by simp)
        obtain ⟨v, h7⟩ := hfull i hi "ymomentum" (by simp)
        exact ⟨_, d, u, v, _, _, h5, h6, h7, velocity_vel hh u d, velocity_vel hh v d, key u v d⟩

/-- **C100.** The velocity is momentum over depth up to one part in `10^12 d`, and never larger in magnitude. -/
theorem C100_velocity {hmin u d v : K} (hh : 0 ≤ hmin) (hd : hmin < d) (h : Vel hmin u d v) :
    |v| ≤ |u / d| ∧ |v - u / d| ≤ |u / d| * (1 / 10 ^ 12 / d) := by
  have hd0 : 0 < d := hh.trans_lt hd
  have he : (0 : K) < 1 / 10 ^ 12 := by positivity
  have hu := h.2 hd
  have h1 : u / d - v = v * (1 / 10 ^ 12 / d) := by
    rw [← hu]
    field_simp
    ring
  have h2 : |u / d| = |v| * (1 + 1 / 10 ^ 12 / d) := by
    have : u / d = v * (1 + 1 / 10 ^ 12 / d) := by linear_combination h1
    rw [this, abs_mul, abs_of_pos (a := 1 + _) (by positivity)]
  have h3 : (0 : K) < 1 / 10 ^ 12 / d := by positivity
  have h4 : |v| ≤ |u / d| := by
    rw [h2]
    nlinarith [abs_nonneg v]
  refine ⟨h4, ?_⟩
  rw [abs_sub_comm, h1, abs_mul, abs_of_pos h3]
  exact mul_le_mul_of_nonneg_right h4 h3.le

end Verif.PlotU
