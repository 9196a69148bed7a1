import Verif.Adv.Lemmas

/-!
# C78: transport with constant velocity
-/

namespace Verif.Adv

open Verif.Geom

variable {n b : ℕ} {D : Dom n b} {i : Bool}

/-- **C78.** The time step is the largest that exceeds neither the limit given nor, for any full triangle and edge, the radius divided by the speed
across the edge (nor `sys.maxsize`). -/
theorem C78_time_step (hD : Valid D i) (maxTimestep : ℝ) : IsGreatest {t | t ≤ maxTimestep ∧ (0 < n → t ≤ 2 ^ 63 - 1) ∧
    ∀ k e, D.full k = true → t * |dot D.velocity (normal (D.cell k).corner e)| ≤ radius i (D.cell k).corner} (timestep D maxTimestep) := by
  have hr : ∀ k, 0 < radius i (D.cell k).corner := by
    intro k
    cases i with
    | false => exact (C77_default_radius (hD.ccw k)).2.2.1
    | true =>
      obtain ⟨⟨p, hp, he⟩, -⟩ := C77_inscribed (hD.ccw k)
      rw [← he 0]
      exact hp 0
  obtain ⟨h1, h2, h3⟩ := foldl_min (optimal D) (List.finRange n) maxTimestep
  have hh : ∀ k, optimal D k ≤ huge := by
    intro k
    cases hf : D.full k with
    | false => exact (optimal_not_full D hf).le
    | true => exact (optimal_full D hf).1
  constructor
  · refine ⟨h1, fun hn => (h2 ⟨0, hn⟩ (List.mem_finRange _)).trans (hh _), ?_⟩
    intro k e hf
    rw [← nv_eq hD, ← radius_cell hD]
    by_cases h0 : normalVelocity D k e = 0
    · rw [h0, abs_zero, mul_zero, radius_cell hD]
      exact (hr k).le
    · have := (h2 k (List.mem_finRange _)).trans ((optimal_full D hf).2.1 e h0)
      rwa [le_div_iff₀ (abs_pos.mpr h0)] at this
  · rintro t ⟨t1, t2, t3⟩
    show t ≤ timestep D maxTimestep
    unfold timestep
    rcases h3 with h3 | ⟨k, -, h3⟩
    · rw [h3]; exact t1
    · rw [h3]
      have hn : 0 < n := Nat.lt_of_le_of_lt (Nat.zero_le _) k.2
      cases hf : D.full k with
      | false => rw [optimal_not_full D hf]; exact t2 hn
      | true =>
        rcases (optimal_full D hf).2.2 with h4 | ⟨e, he, h4⟩
        · rw [h4]; exact t2 hn
        · rw [h4, le_div_iff₀ (abs_pos.mpr he), radius_cell hD, nv_eq hD]
          exact t3 k e hf

/-- Outer value seen by a triangle after extrapolation of first order. -/
theorem outer_eq (q : Fin n → ℝ) (bd : Fin b → ℝ) (k : Fin n) (e : Fin 3) :
    outer D (extrapolate q) bd k e = match D.nb k e with | .bdry m => bd m | .tri k' _ => q k' := by
  unfold outer extrapolate
  rfl

/-- The step as a combination of the value itself and the values upstream. -/
theorem euler_eq (hD : Valid D i) (B : Boundary n b) (s : ℕ) (dt : ℝ) (q : Fin n → ℝ) (k : Fin n) :
    (D.cell k).area * euler D B s dt q k =
      ((D.cell k).area - dt * ∑ e, max ((D.cell k).len e * normalVelocity D k e) 0) * q k +
      dt * ∑ e, -(min ((D.cell k).len e * normalVelocity D k e) 0) * outer D (extrapolate q) (B s q) k e := by
  have hA : 0 < (D.cell k).area := by rw [area_cell hD]; exact (C77_area (hD.ccw k)).1
  have hl : ∀ e, 0 ≤ (D.cell k).len e := fun e => by rw [len_cell hD]; exact (len_pos (hD.ccw k) e).le
  have h1 : ∀ e, max ((D.cell k).len e * normalVelocity D k e) 0 = (D.cell k).len e * max (normalVelocity D k e) 0 := by
    intro e; rw [mul_max_of_nonneg _ _ (hl e), mul_zero]
  have h2 : ∀ e, min ((D.cell k).len e * normalVelocity D k e) 0 = (D.cell k).len e * min (normalVelocity D k e) 0 := by
    intro e; rw [mul_min_of_nonneg _ _ (hl e), mul_zero]
  unfold euler
  rw [update_eq, mul_add]
  have : (D.cell k).area * (dt * (-(∑ e, edgeFlux D (extrapolate q) (B s q) k e * (D.cell k).len e) / (D.cell k).area)) =
      dt * -(∑ e, edgeFlux D (extrapolate q) (B s q) k e * (D.cell k).len e) := by
    field_simp
  rw [this]
  simp only [h1, h2, edgeFlux_eq, Fin.sum_univ_three, extrapolate]
  ring

/-- The condition on the time step that makes the combination convex. -/
theorem cfl (hD : Valid D true) {k : Fin n} (hf : D.full k = true) {dt maxTimestep : ℝ} (h0 : 0 ≤ dt) (h1 : dt ≤ timestep D maxTimestep) :
    dt * ∑ e, max ((D.cell k).len e * normalVelocity D k e) 0 ≤ (D.cell k).area := by
  have hA : 0 < area (D.cell k).corner := (C77_area (hD.ccw k)).1
  have hP : 0 < perimeter (D.cell k).corner := Finset.sum_pos (fun e _ => dist_pos (sides_ne (hD.ccw k) e)) ⟨0, Finset.mem_univ _⟩
  rw [area_cell hD]
  refine sum_max _ (nv_closed hD k) dt _ (fun e => ?_) h0 hA.le
  have h2 := (C78_time_step hD maxTimestep).1.2.2 k e hf
  have h3 : dt * |normalVelocity D k e| ≤ radius true (D.cell k).corner := by
    rw [nv_eq hD]
    exact (mul_le_mul_of_nonneg_right h1 (abs_nonneg _)).trans h2
  have h4 := len_le_half (hD.ccw k) e
  have hl := len_pos (hD.ccw k) e
  rw [len_cell hD, abs_mul, abs_of_pos hl]
  calc dt * (len (D.cell k).corner e * |normalVelocity D k e|) = len (D.cell k).corner e * (dt * |normalVelocity D k e|) := by ring
    _ ≤ len (D.cell k).corner e * radius true (D.cell k).corner := mul_le_mul_of_nonneg_left h3 hl.le
    _ ≤ perimeter (D.cell k).corner / 2 * radius true (D.cell k).corner := by
        refine mul_le_mul_of_nonneg_right (by linarith) ?_
        rw [radius_true]; positivity
    _ = area (D.cell k).corner := by rw [radius_true]; field_simp

/-- **C78.** With the radius of the inscribed circle the new value of a triangle lies between the smallest and the largest of its own value and the values
across those of its edges through which the flow enters. -/
theorem C78_local (hD : Valid D true) {k : Fin n} (hf : D.full k = true) {dt maxTimestep : ℝ} (h0 : 0 ≤ dt) (h1 : dt ≤ timestep D maxTimestep)
    (B : Boundary n b) (s : ℕ) (q : Fin n → ℝ) {lo hi : ℝ} (hk : lo ≤ q k ∧ q k ≤ hi)
    (hin : ∀ e, dot D.velocity (normal (D.cell k).corner e) < 0 →
      (∀ k' e', D.nb k e = .tri k' e' → lo ≤ q k' ∧ q k' ≤ hi) ∧ ∀ m, D.nb k e = .bdry m → lo ≤ B s q m ∧ B s q m ≤ hi) :
    lo ≤ euler D B s dt q k ∧ euler D B s dt q k ≤ hi := by
  have hA : 0 < (D.cell k).area := by rw [area_cell hD]; exact (C77_area (hD.ccw k)).1
  have hl : ∀ e, 0 < (D.cell k).len e := fun e => by rw [len_cell hD]; exact len_pos (hD.ccw k) e
  have hc := cfl hD hf h0 h1
  have heq := euler_eq hD B s dt q k
  have hz := nv_closed hD k
  have hsum : ∑ e, -(min ((D.cell k).len e * normalVelocity D k e) 0) = ∑ e, max ((D.cell k).len e * normalVelocity D k e) 0 := by
    rw [← sub_eq_zero, ← Finset.sum_sub_distrib]
    have hz' : ∑ e, -((D.cell k).len e * normalVelocity D k e) = 0 := by rw [Finset.sum_neg_distrib, hz, neg_zero]
    refine Eq.trans (Finset.sum_congr rfl fun e _ => ?_) hz'
    rcases le_total ((D.cell k).len e * normalVelocity D k e) 0 with h | h
    · rw [min_eq_left h, max_eq_right h]; ring
    · rw [min_eq_right h, max_eq_left h]; ring
  have hout : ∀ e, normalVelocity D k e < 0 → lo ≤ outer D (extrapolate q) (B s q) k e ∧ outer D (extrapolate q) (B s q) k e ≤ hi := by
    intro e he
    rw [nv_eq hD] at he
    obtain ⟨a1, a2⟩ := hin e he
    rw [outer_eq]
    cases hnb : D.nb k e with
    | tri k' e' => exact a1 k' e' hnb
    | bdry m => exact a2 m hnb
  have hlo : (∑ e, -(min ((D.cell k).len e * normalVelocity D k e) 0)) * lo ≤
      ∑ e, -(min ((D.cell k).len e * normalVelocity D k e) 0) * outer D (extrapolate q) (B s q) k e := by
    rw [Finset.sum_mul]
    refine Finset.sum_le_sum fun e _ => ?_
    rcases le_or_gt 0 (normalVelocity D k e) with h | h
    · rw [min_eq_right (mul_nonneg (hl e).le h)]; simp
    · exact mul_le_mul_of_nonneg_left (hout e h).1 (by simp)
  have hhi : ∑ e, -(min ((D.cell k).len e * normalVelocity D k e) 0) * outer D (extrapolate q) (B s q) k e ≤
      (∑ e, -(min ((D.cell k).len e * normalVelocity D k e) 0)) * hi := by
    rw [Finset.sum_mul]
    refine Finset.sum_le_sum fun e _ => ?_
    rcases le_or_gt 0 (normalVelocity D k e) with h | h
    · rw [min_eq_right (mul_nonneg (hl e).le h)]; simp
    · exact mul_le_mul_of_nonneg_left (hout e h).2 (by simp)
  rw [hsum] at hlo hhi
  have k1 := mul_le_mul_of_nonneg_left hlo h0
  have k2 := mul_le_mul_of_nonneg_left hhi h0
  have k3 := mul_le_mul_of_nonneg_left hk.1 (sub_nonneg.mpr hc)
  have k4 := mul_le_mul_of_nonneg_left hk.2 (sub_nonneg.mpr hc)
  constructor
  · refine le_of_mul_le_mul_left ?_ hA
    rw [heq]
    nlinarith
  · refine le_of_mul_le_mul_left ?_ hA
    rw [heq]
    nlinarith

theorem euler_bounds (hD : Valid D true) (hf : ∀ k, D.full k = true) {dt maxTimestep : ℝ} (h0 : 0 ≤ dt) (h1 : dt ≤ timestep D maxTimestep)
    {B : Boundary n b} {lo hi : ℝ} (hB : Keeps B lo hi) (s : ℕ) {q : Fin n → ℝ} (hq : ∀ k, lo ≤ q k ∧ q k ≤ hi) (k : Fin n) :
    lo ≤ euler D B s dt q k ∧ euler D B s dt q k ≤ hi :=
  C78_local hD (hf k) h0 h1 B s q (hq k) fun _ _ => ⟨fun k' _ _ => hq k', fun m _ => hB s q hq m⟩

/-- **C78.** No new extremes in a whole run, with each of the three methods: values stay between bounds for the initial values that the boundary values
respect. -/
theorem C78_bounds (hD : Valid D true) (hf : ∀ k, D.full k = true) {B : Boundary n b} {lo hi : ℝ} (hB : Keeps B lo hi) (m : Method) (s : ℕ)
    {dts : List ℝ} {maxTimestep : ℝ} (hdt : ∀ dt ∈ dts, 0 ≤ dt ∧ dt ≤ timestep D maxTimestep) {q : Fin n → ℝ} (hq : ∀ k, lo ≤ q k ∧ q k ≤ hi) :
    ∀ k, lo ≤ run D B m s dts q k ∧ run D B m s dts q k ≤ hi := by
  induction dts generalizing s q with
  | nil => exact hq
  | cons dt dts ih =>
    unfold run
    refine ih (s + 3) (fun d hd => hdt d (List.mem_cons_of_mem _ hd)) ?_
    obtain ⟨h0, h1⟩ := hdt dt (by simp)
    have E : ∀ s {q : Fin n → ℝ}, (∀ k, lo ≤ q k ∧ q k ≤ hi) → ∀ k, lo ≤ euler D B s dt q k ∧ euler D B s dt q k ≤ hi :=
      fun s q hq k => euler_bounds hD hf h0 h1 hB s hq k
    cases m with
    | euler => exact E s hq
    | rk2 =>
      intro k
      have a := E (s + 1) (E s hq) k
      have c := hq k
      unfold step saxpy
      constructor <;> norm_num <;> linarith
    | rk3 =>
      have a := E (s + 1) (E s hq)
      have c : ∀ k, lo ≤ saxpy 0.25 0.75 (euler D B (s + 1) dt (euler D B s dt q)) q k ∧
          saxpy 0.25 0.75 (euler D B (s + 1) dt (euler D B s dt q)) q k ≤ hi := by
        intro k
        have a := a k
        have c := hq k
        unfold saxpy
        constructor <;> norm_num <;> linarith
      intro k
      have d := E (s + 2) c k
      have c := hq k
      unfold step
      simp only
      rw [show ∀ (p : Fin n → ℝ), saxpy 2 1 p q k / 3 = (2 * p k + 1 * q k) / 3 from fun _ => rfl]
      constructor <;> linarith

/-- **C78.** What one triangle gives through a shared edge the other receives, for any values on the edges, also discontinuous ones. -/
theorem C78_exchange (hD : Valid D i) (v : Fin n → Fin 3 → ℝ) (bd : Fin b → ℝ) {k : Fin n} {e : Fin 3} {k' : Fin n} {e' : Fin 3} (h : D.nb k e = .tri k' e') :
    edgeFlux D v bd k e * (D.cell k).len e = -(edgeFlux D v bd k' e' * (D.cell k').len e') := by
  obtain ⟨s1, s2⟩ := hD.shared h
  obtain ⟨l, -, nn⟩ := C77_shared s1 s2
  have hv : normalVelocity D k e = -normalVelocity D k' e' := by
    rw [nv_eq hD, nv_eq hD]
    unfold dot
    rw [nn]
    ring
  have o1 : outer D v bd k e = v k' e' := by unfold outer; rw [h]
  have o2 : outer D v bd k' e' = v k e := by unfold outer; rw [hD.back h]
  rw [edgeFlux_eq, edgeFlux_eq, o1, o2, len_cell hD, len_cell hD, l, hv]
  rw [show max (-normalVelocity D k' e') 0 = -min (normalVelocity D k' e') 0 by rw [← neg_zero, max_neg_neg, neg_zero],
    show min (-normalVelocity D k' e') 0 = -max (normalVelocity D k' e') 0 by rw [← neg_zero, min_neg_neg, neg_zero]]
  ring

/-- **C78.** The total changes by what passes the boundary, and by nothing else, whatever the radii and the time step. -/
theorem C78_mass (hD : Valid D i) (B : Boundary n b) (s : ℕ) (dt : ℝ) (q : Fin n → ℝ) :
    mass D (euler D B s dt q) = mass D q - dt * outflow D (B s q) q := by
  set F : Fin n × Fin 3 → ℝ := fun p => edgeFlux D (extrapolate q) (B s q) p.1 p.2 * (D.cell p.1).len p.2 with hF
  have h1 : mass D (euler D B s dt q) = mass D q - dt * ∑ k, ∑ e, F (k, e) := by
    unfold mass
    rw [Finset.mul_sum, ← Finset.sum_sub_distrib]
    refine Finset.sum_congr rfl fun k _ => ?_
    have hA : 0 < (D.cell k).area := by rw [area_cell hD]; exact (C77_area (hD.ccw k)).1
    unfold euler
    rw [update_eq, ← area_cell hD]
    field_simp
    ring
  rw [h1]
  congr 2
  have h2 : ∑ p : Fin n × Fin 3, (match D.nb p.1 p.2 with | .tri _ _ => F p | .bdry _ => 0) = 0 := by
    have hinv : ∑ p : Fin n × Fin 3, (match D.nb p.1 p.2 with | .tri _ _ => F p | .bdry _ => 0) =
        ∑ p : Fin n × Fin 3, -(match D.nb p.1 p.2 with | .tri _ _ => F p | .bdry _ => 0) := by
      refine Finset.sum_bij' (fun p _ => match D.nb p.1 p.2 with | .tri k e => (k, e) | .bdry _ => p)
        (fun p _ => match D.nb p.1 p.2 with | .tri k e => (k, e) | .bdry _ => p) (fun _ _ => Finset.mem_univ _) (fun _ _ => Finset.mem_univ _)
        ?_ ?_ ?_
      · rintro ⟨k, e⟩ -
        cases h : D.nb k e with
        | tri k' e' => simp only [hD.back h]
        | bdry m => simp only [h]
      · rintro ⟨k, e⟩ -
        cases h : D.nb k e with
        | tri k' e' => simp only [hD.back h]
        | bdry m => simp only [h]
      · rintro ⟨k, e⟩ -
        cases h : D.nb k e with
        | tri k' e' =>
          simp only [hD.back h]
          exact C78_exchange hD (extrapolate q) (B s q) h
        | bdry m => simp only [h, neg_zero]
    rw [Finset.sum_neg_distrib] at hinv
    linarith
  unfold outflow
  have h3 : ∑ k, ∑ e, F (k, e) = ∑ k, ∑ e, F (k, e) - ∑ k, ∑ e, (match D.nb k e with | .tri _ _ => F (k, e) | .bdry _ => 0) := by
    rw [Fintype.sum_prod_type] at h2
    rw [h2, sub_zero]
  rw [h3, ← Finset.sum_sub_distrib]
  refine Finset.sum_congr rfl fun k _ => ?_
  rw [← Finset.sum_sub_distrib]
  refine Finset.sum_congr rfl fun e _ => ?_
  cases h : D.nb k e with
  | tri k' e' => simp only [sub_self]
  | bdry m =>
    simp only [sub_zero, hF]
    rw [edgeFlux_eq, outer_eq, h, len_cell hD, len_eq, nv_eq hD]
    simp only [extrapolate]
    ring

/-- **C78.** The same for one step with each method: the total changes by the weighted outflows of the stages. -/
theorem C78_mass_methods (hD : Valid D i) (B : Boundary n b) (s : ℕ) (dt : ℝ) (q : Fin n → ℝ) :
    mass D (step D B .euler s dt q) = mass D q - dt * outflow D (B s q) q ∧
    (∃ q1, mass D (step D B .rk2 s dt q) = mass D q - dt * ((outflow D (B s q) q + outflow D (B (s + 1) q1) q1) / 2)) ∧
    ∃ q1 q2, mass D (step D B .rk3 s dt q) = mass D q -
      dt * ((outflow D (B s q) q + outflow D (B (s + 1) q1) q1 + 4 * outflow D (B (s + 2) q2) q2) / 6) := by
  have hs : ∀ (a c : ℝ) (p p' : Fin n → ℝ), mass D (saxpy a c p p') = a * mass D p + c * mass D p' := by
    intro a c p p'
    unfold mass saxpy
    rw [Finset.mul_sum, Finset.mul_sum, ← Finset.sum_add_distrib]
    exact Finset.sum_congr rfl fun _ _ => by ring
  refine ⟨C78_mass hD B s dt q, ⟨euler D B s dt q, ?_⟩, euler D B s dt q, saxpy 0.25 0.75 (euler D B (s + 1) dt (euler D B s dt q)) q, ?_⟩
  · unfold step
    simp only
    rw [hs, C78_mass hD, C78_mass hD]
    ring
  · unfold step
    simp only
    have : ∀ p : Fin n → ℝ, mass D (fun k => p k / 3) = mass D p / 3 := by
      intro p
      unfold mass
      rw [Finset.sum_div]
      exact Finset.sum_congr rfl fun _ _ => by ring
    rw [this, hs, C78_mass hD, hs, C78_mass hD, C78_mass hD]
    ring

/-- **C78.** A uniform value stays, if the boundary has it too; for all time steps and radii. -/
theorem C78_uniform (hD : Valid D i) (B : Boundary n b) (c : ℝ) (hB : ∀ s m, B s (fun _ => c) m = c) (m : Method) (s : ℕ) (dts : List ℝ) :
    run D B m s dts (fun _ => c) = fun _ => c := by
  have E : ∀ s dt, euler D B s dt (fun _ => c) = fun _ => c := by
    intro s dt
    funext k
    have hA : 0 < (D.cell k).area := by rw [area_cell hD]; exact (C77_area (hD.ccw k)).1
    unfold euler
    rw [update_eq]
    have : ∑ e, edgeFlux D (extrapolate fun _ => c) (B s fun _ => c) k e * (D.cell k).len e = 0 := by
      have hz := nv_closed hD k
      rw [← zero_mul c, ← hz, Finset.sum_mul]
      refine Finset.sum_congr rfl fun e _ => ?_
      have ho : outer D (extrapolate fun _ => c) (B s fun _ => c) k e = c := by
        rw [outer_eq]
        cases D.nb k e with
        | tri k' e' => rfl
        | bdry m => exact hB s m
      rw [edgeFlux_eq, ho]
      have := max_add_min (normalVelocity D k e) 0
      simp only [extrapolate]
      linear_combination c * (D.cell k).len e * this
    rw [this]
    simp
  have S : ∀ s dt, step D B m s dt (fun _ => c) = fun _ => c := by
    intro s dt
    cases m with
    | euler => exact E s dt
    | rk2 =>
      simp only [step, E]
      funext k
      unfold saxpy
      ring
    | rk3 =>
      have : saxpy 0.25 0.75 (fun _ => c) (fun _ => c) = fun _ : Fin n => c := by
        funext k; unfold saxpy; ring
      simp only [step, E, this]
      funext k
      unfold saxpy
      ring
  induction dts generalizing s with
  | nil => rfl
  | cons dt dts ih =>
    unfold run
    rw [S]
    exact ih _

theorem outer_sub (q p : Fin n → ℝ) (bd : Fin b → ℝ) (k : Fin n) (e : Fin 3) : outer D (extrapolate q) bd k e - outer D (extrapolate p) bd k e =
    outer D (extrapolate fun k => q k - p k) (fun _ => 0) k e := by
  rw [outer_eq, outer_eq, outer_eq]
  cases D.nb k e <;> simp

theorem euler_diff (hD : Valid D true) {k : Fin n} (hf : D.full k = true) {dt maxTimestep : ℝ} (h0 : 0 ≤ dt) (h1 : dt ≤ timestep D maxTimestep)
    (bd : ℕ → Fin b → ℝ) (s : ℕ) (q p : Fin n → ℝ) :
    (D.cell k).area * |euler D (fun s _ => bd s) s dt q k - euler D (fun s _ => bd s) s dt p k| ≤
      (D.cell k).area * euler D (fun _ _ _ => 0) s dt (fun k => |q k - p k|) k := by
  have hA : 0 < (D.cell k).area := by rw [area_cell hD]; exact (C77_area (hD.ccw k)).1
  have e1 := euler_eq hD (fun s _ => bd s) s dt q k
  have e2 := euler_eq hD (fun s _ => bd s) s dt p k
  have e3 := euler_eq hD (fun _ _ _ => 0) s dt (fun k => |q k - p k|) k
  have hc := cfl hD hf h0 h1
  have hm : ∀ e, 0 ≤ -(min ((D.cell k).len e * normalVelocity D k e) 0) := fun e => by simp
  have e0 : (D.cell k).area * |euler D (fun s _ => bd s) s dt q k - euler D (fun s _ => bd s) s dt p k| =
      |(D.cell k).area * euler D (fun s _ => bd s) s dt q k - (D.cell k).area * euler D (fun s _ => bd s) s dt p k| := by
    rw [← mul_sub, abs_mul, abs_of_pos hA]
  rw [e0, e1, e2, e3]
  have e4 : ∀ S T U : ℝ, (((D.cell k).area - dt * S) * q k + dt * T) - (((D.cell k).area - dt * S) * p k + dt * U) =
      ((D.cell k).area - dt * S) * (q k - p k) + dt * (T - U) := by
    intro S T U; ring
  rw [e4]
  refine (abs_add_le _ _).trans ?_
  refine add_le_add ?_ ?_
  · rw [abs_mul, abs_of_nonneg (sub_nonneg.mpr hc)]
  · rw [abs_mul, abs_of_nonneg h0]
    refine mul_le_mul_of_nonneg_left ?_ h0
    rw [← Finset.sum_sub_distrib]
    refine (Finset.abs_sum_le_sum_abs _ _).trans (Finset.sum_le_sum fun e _ => ?_)
    rw [← mul_sub, abs_mul, abs_of_nonneg (hm e), outer_sub]
    refine mul_le_mul_of_nonneg_left ?_ (hm e)
    rw [outer_eq, outer_eq]
    cases D.nb k e with
    | tri k' e' => exact le_rfl
    | bdry m => simp

theorem outflow_nonneg (q : Fin n → ℝ) (hq : ∀ k, 0 ≤ q k) : 0 ≤ outflow D (fun _ => 0) q := by
  unfold outflow
  refine Finset.sum_nonneg fun k _ => Finset.sum_nonneg fun e _ => ?_
  cases D.nb k e with
  | tri k' e' => exact le_rfl
  | bdry m =>
    simp only [mul_zero, add_zero]
    exact mul_nonneg (Real.sqrt_nonneg _) (mul_nonneg (le_max_right _ _) (hq k))

/-- **C78.** Two runs with the same boundary values never move apart: the area-weighted sum of their differences does not grow. -/
theorem C78_contraction (hD : Valid D true) (hf : ∀ k, D.full k = true) (bd : ℕ → Fin b → ℝ) (s : ℕ)
    {dts : List ℝ} {maxTimestep : ℝ} (hdt : ∀ dt ∈ dts, 0 ≤ dt ∧ dt ≤ timestep D maxTimestep) (q p : Fin n → ℝ) :
    ∑ k, area (D.cell k).corner * |run D (fun s _ => bd s) .euler s dts q k - run D (fun s _ => bd s) .euler s dts p k| ≤
      ∑ k, area (D.cell k).corner * |q k - p k| := by
  induction dts generalizing s q p with
  | nil => exact le_rfl
  | cons dt dts ih =>
    unfold run
    refine (ih (s + 3) (fun d hd => hdt d (List.mem_cons_of_mem _ hd)) _ _).trans ?_
    obtain ⟨h0, h1⟩ := hdt dt (by simp)
    have h2 := C78_mass hD (fun _ _ _ => 0) s dt fun k => |q k - p k|
    have h3 := mul_nonneg h0 (outflow_nonneg (D := D) (fun k => |q k - p k|) fun k => abs_nonneg _)
    unfold mass at h2
    refine le_trans (Finset.sum_le_sum fun k _ => ?_) (h2.le.trans (by linarith))
    have := euler_diff hD (hf k) h0 h1 bd s q p
    rw [area_cell hD] at this
    exact this

/-! ## Concrete cases -/

/-- One triangle with boundary on all sides and flow to the north. -/
noncomputable def one (inscribed : Bool) (V : Tri) : Dom 1 3 := ⟨fun _ => cell inscribed V, fun _ e => .bdry e, fun _ => true, (0, 1)⟩

theorem one_valid (inscribed : Bool) {V : Tri} (h : CCW V) : Valid (one inscribed V) inscribed :=
  ⟨fun _ => h, fun _ => rfl, (by intro k e k' e' h; cases h), (by intro k e k' e' h; cases h)⟩

/-- **C78, disagreement.** With the radius used unless the inscribed circle is asked for, one step of the length chosen takes values outside their
bounds: from zero outside and one inside to a negative number. -/
theorem C78_default_radius_overshoots : ∃ D : Dom 1 3, Valid D false ∧ (∀ k, D.full k = true) ∧
    euler D (fun _ _ _ => 0) 0 (timestep D 1000) (fun _ => 1) 0 < 0 := by
  refine ⟨one false thin, one_valid false thin_ccw, fun _ => rfl, ?_⟩
  have hV := one_valid false thin_ccw
  have hr : (1 / 3 : ℝ) ≤ radius false thin := by
    obtain ⟨e, he⟩ := (C77_default_radius thin_ccw).2.1
    rw [he]
    apply Real.le_sqrt_of_sq_le
    fin_cases e <;> norm_num [centroid, mid, thin_0, thin_1, thin_2]
  have hT : (1 / 3 : ℝ) ≤ timestep (one false thin) 1000 := by
    refine (C78_time_step hV 1000).2 ⟨by norm_num, fun _ => by norm_num, ?_⟩
    intro k e _
    have hn := (C77_normals thin_ccw e).1
    have h1 : |dot (0, 1) (normal thin e)| ≤ 1 := by
      rw [abs_le_one_iff_mul_self_le_one]
      unfold dot at hn ⊢
      simp only [zero_mul, one_mul, zero_add]
      nlinarith [sq_nonneg (normal thin e).1]
    show 1 / 3 * |dot (0, 1) (normal thin e)| ≤ radius false thin
    linarith
  have hl : len thin 2 = 4 := by
    unfold len
    rw [show (side thin 2).1 ^ 2 + (side thin 2).2 ^ 2 = 4 ^ 2 by
      rw [side_eq]; norm_num [tail, head, two_one, two_two, thin_0, thin_1, thin_2]]
    exact Real.sqrt_sq (by norm_num)
  have h2 : normalVelocity (one false thin) 0 2 = -1 := by
    rw [nv_eq hV]
    show dot (0, 1) (normal thin 2) = -1
    unfold dot normal
    rw [hl, side_eq]
    norm_num [tail, head, two_one, two_two, thin_0, thin_1, thin_2]
  have hz := nv_closed hV 0
  have hA : area thin = 1 / 5 := by norm_num [area, thin_0, thin_1, thin_2]
  have he := euler_eq hV (fun _ _ _ => 0) 0 (timestep (one false thin) 1000) (fun _ => 1) 0
  have ho : ∀ e, outer (one false thin) (extrapolate fun _ => 1) (fun _ => 0) 0 e = 0 := fun _ => rfl
  simp only [ho, mul_zero, Finset.sum_const_zero, add_zero, mul_one] at he
  have hS : 4 ≤ ∑ e, max (((one false thin).cell 0).len e * normalVelocity (one false thin) 0 e) 0 := by
    rw [Fin.sum_univ_three] at hz ⊢
    rw [h2, show ((one false thin).cell 0).len 2 = 4 from hl] at hz
    have a0 := le_max_left (((one false thin).cell 0).len 0 * normalVelocity (one false thin) 0 0) 0
    have a1 := le_max_left (((one false thin).cell 0).len 1 * normalVelocity (one false thin) 0 1) 0
    have a2 := le_max_right (((one false thin).cell 0).len 2 * normalVelocity (one false thin) 0 2) 0
    linarith
  have hA' : ((one false thin).cell 0).area = 1 / 5 := hA
  rw [hA'] at he
  nlinarith

/-- The right triangle with the inscribed circle meets the hypotheses of the bounds. -/
example : Valid (one true right) true ∧ (∀ k, (one true right).full k = true) ∧ Keeps (n := 1) (b := 3) (fun _ _ _ => 0) 0 1 ∧
    0 ≤ min (timestep (one true right) 1000) (timestep (one true right) 1000) := by
  refine ⟨one_valid true right_ccw, fun _ => rfl, fun _ _ _ _ => ⟨le_rfl, zero_le_one⟩, ?_⟩
  rw [min_self]
  refine (C78_time_step (one_valid true right_ccw) 1000).2 ⟨by norm_num, fun _ => by norm_num, ?_⟩
  intro k e _
  rw [zero_mul]
  show 0 ≤ radius true right
  obtain ⟨⟨p, hp, h⟩, -⟩ := C77_inscribed right_ccw
  rw [← h 0]
  exact (hp 0).le

/-- Two triangles that make up a rectangle. -/
noncomputable def two : Dom 2 4 :=
  ⟨fun k => if k = 0 then cell true ![(0, 0), (4, 0), (0, 3)] else cell true ![(4, 3), (0, 3), (4, 0)],
   fun k e => if e = 0 then .tri (1 - k) 0 else .bdry ⟨2 * k.1 + (e.1 - 1), by have := k.2; have := e.2; omega⟩, fun _ => true, (1, 2)⟩

example : Valid two true := by
  have key : ∀ {p : Fin 2 → Prop}, p 0 → p 1 → ∀ k, p k := by
    intro p h0 h1 k
    fin_cases k <;> assumption
  have hnb : ∀ {k : Fin 2} {e : Fin 3} {k' : Fin 2} {e' : Fin 3}, two.nb k e = .tri k' e' → e = 0 ∧ k' = 1 - k ∧ e' = 0 := by
    intro k e k' e' h
    unfold two at h
    simp only at h
    split_ifs at h with h0
    simp only [Nb.tri.injEq] at h
    exact ⟨h0, h.1.symm, h.2.symm⟩
  refine ⟨?_, ?_, ?_, ?_⟩
  · refine key ?_ ?_
    · show 0 < cross (0, 0) (4, 0) (0, 3)
      norm_num [cross]
    · show 0 < cross (4, 3) (0, 3) (4, 0)
      norm_num [cross]
  · exact key rfl rfl
  · intro k e k' e' h
    obtain ⟨rfl, rfl, rfl⟩ := hnb h
    exact key (p := fun k => two.nb (1 - k) 0 = .tri k 0) rfl rfl k
  · intro k e k' e' h
    obtain ⟨rfl, rfl, rfl⟩ := hnb h
    exact key (p := fun k => tail (two.cell k).corner 0 = head (two.cell (1 - k)).corner 0 ∧
      head (two.cell k).corner 0 = tail (two.cell (1 - k)).corner 0) ⟨rfl, rfl⟩ ⟨rfl, rfl⟩ k

end Verif.Adv
