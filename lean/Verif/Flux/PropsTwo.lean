import Verif.Flux.Props
import Verif.Flux.Sample

/-!
# Agreement of the serial and parallel flux computation, the CFL timestep, substep counting
-/

set_option linter.unusedSectionVars false

namespace Verif.Flux

variable {K : Type*} [Field K] [LinearOrder K] [IsStrictOrderedRing K] {N : ℕ}

/-! ## C42 -/

theorem work_all (c : Consts K) (D : Dom N K) (hC : Conforming D) (hH : ∀ e, HeadsOk (edgeIn D e (wallRank D e - 1)))
    (hU : ∀ e, D.update e = true) (call : ℤ) (first : Bool) (dt : K) (s0 : FSt N K) (hM : ∀ e, s0.mark e < call) :
    (computeFluxes c D call first dt s0).st.work = (fun e => (own c D e).flux.neg) ∧
      (computeFluxes c D call first dt s0).st.pg = (fun e => (own c D e).pgl) := by
  have h := fun e => (loop_spec c D hC.symm (fun e m _ => by rw [hU, hU]) call first dt s0 (fun e => ne_of_lt (hM e)) e).1
    (hU e)
  constructor
  · funext e; rw [(h e).1, finalWork_eq c D hC hH]
  · funext e; rw [(h e).2.1, finalPg_eq c D hC hH]

/-- C42: on a sequential domain (every triangle owned, all edges refreshed) whose two-sided edge data agree, the serial
flux routine (`multiprocessor_mode` 0) and the OpenMP one (mode 2) return the same updates of stage and momentum, the same
boundary flux and the same timestep. -/
theorem C42_serial_equals_parallel (c : Consts K) (D : Dom N K) (hC : Conforming D)
    (hH : ∀ e, HeadsOk (edgeIn D e (wallRank D e - 1))) (hU : ∀ e, D.update e = true) (hF : ∀ k, D.full k = true)
    (hI : D.allowIncrease = true) (call : ℤ) (first : Bool) (dt : K) (s0 : FSt N K) (hM : ∀ e, s0.mark e < call) :
    let r := computeFluxes c D call first dt s0
    (r.upd, r.bsum, r.timestep) = computeFluxesMp c D first dt := by
  obtain ⟨hw, hp⟩ := work_all c D hC hH hU call first dt s0 hM
  have e1 : (computeFluxes c D call first dt s0).upd = (computeFluxesMp c D first dt).1 := by
    have : (computeFluxes c D call first dt s0).upd = sumUp D (computeFluxes c D call first dt s0).st.work
      (computeFluxes c D call first dt s0).st.pg := rfl
    rw [this, hw, hp]
    unfold computeFluxesMp
    simp only [edgeComputeMp_eq]
    rfl
  have e2 : (computeFluxes c D call first dt s0).bsum = (computeFluxesMp c D first dt).2.1 := by
    have : (computeFluxes c D call first dt s0).bsum = ∑ e, if isOuter D e then
      ((computeFluxes c D call first dt s0).st.work e).w else 0 := rfl
    rw [this, hw]
    unfold computeFluxesMp
    simp only [edgeComputeMp_eq]
    rfl
  have e3 : (computeFluxes c D call first dt s0).timestep = (computeFluxesMp c D first dt).2.2 := by
    cases first with
    | false => rfl
    | true =>
      have ht : (computeFluxes c D call true dt s0).timestep = (computeFluxes c D call true dt s0).st.localTs := rfl
      have hs := ts_spec c D hC.symm (fun e m _ => by rw [hU, hU]) call dt s0 (fun e => ne_of_lt (hM e))
      rw [ht]
      unfold computeFluxesMp
      simp only [if_true, edgeComputeMp_eq]
      have hf := foldl_min_spec (fun e : Edge N => D.full e.1 = true ∧ (own c D e).speed > c.eps)
        (fun e => D.radius e.1 * 1 / max (own c D e).speed c.eps) (10 ^ 100) (edgeList N)
      change (computeFluxes c D call true dt s0).st.localTs = (edgeList N).foldl (fun t e =>
        if D.full e.1 = true ∧ (own c D e).speed > c.eps then min t (D.radius e.1 * 1 / max (own c D e).speed c.eps)
        else t) (10 ^ 100)
      obtain ⟨f1, f2, f3⟩ := hf
      rw [hI] at hs
      simp only [if_true] at hs
      apply le_antisymm
      · rcases f3 with f3 | ⟨e, he, hP, f3⟩
        · rw [f3]; exact hs.init
        · rw [f3]
          apply hs.all
          by_cases hl : Later D e
          · obtain ⟨m, hm, hlt⟩ := hl
            have hme := (hC.symm e m hm).1
            have hsw := own_swap c D hC hH hm
            have hsp : (own c D m).speed = (own c D e).speed := by rw [hsw]
            refine ⟨m, mem_edgeList m, hU m, ?_, hF m.1, by rw [hsp]; exact hP.2, Or.inr ⟨e, hme, ?_⟩⟩
            · rintro ⟨m', hm', hlt'⟩
              rw [hme] at hm'; cases hm'; omega
            · rw [hsp, mul_one, mul_one_div]
          · exact ⟨e, mem_edgeList e, hU e, hl, hF e.1, hP.2, Or.inl (by rw [mul_one, mul_one_div])⟩
      · rcases hs.attained with ha | ⟨e, he, _, _, _, hsp, ha⟩
        · rw [ha]; exact f1
        · rcases ha with ha | ⟨m, hm, ha⟩
          · rw [ha]
            refine (f2 e (mem_edgeList e) ⟨hF e.1, hsp⟩).trans (le_of_eq ?_)
            rw [mul_one, mul_one_div]
          · have hsw := own_swap c D hC hH hm
            have hspe : (own c D m).speed = (own c D e).speed := by rw [hsw]
            rw [ha]
            refine (f2 m (mem_edgeList m) ⟨hF m.1, by rw [hspe]; exact hsp⟩).trans (le_of_eq ?_)
            rw [mul_one, mul_one_div, hspe]
  simp only
  rw [e1, e2, e3]

/-! ## C43 -/

/-- C43: with owned triangles numbered before ghosts, the timestep returned by the first substep never exceeds inradius over
wave speed for any edge of any owned triangle. -/
theorem C43_timestep_is_stable (c : Consts K) (heps : 0 ≤ c.eps) (D : Dom N K) (hC : Conforming D)
    (hH : ∀ e, HeadsOk (edgeIn D e (wallRank D e - 1))) (hU : ∀ e, D.update e = true)
    (hO : ∀ k k', D.full k = true → D.full k' = false → k < k')
    (call : ℤ) (dt : K) (s0 : FSt N K) (hM : ∀ e, s0.mark e < call) (e : Edge N) (hf : D.full e.1 = true)
    (hs : c.eps < edgeSpeed c D e) :
    (computeFluxes c D call true dt s0).timestep * edgeSpeed c D e ≤ D.radius e.1 := by
  have hts := ts_spec c D hC.symm (fun e m _ => by rw [hU, hU]) call dt s0 (fun e => ne_of_lt (hM e))
  have ht : (computeFluxes c D call true dt s0).timestep = (computeFluxes c D call true dt s0).st.localTs := rfl
  have hown : edgeSpeed c D e = (own c D e).speed := rfl
  rw [hown] at hs ⊢
  have hpos : 0 < (own c D e).speed := lt_of_le_of_lt heps hs
  have hB : (computeFluxes c D call true dt s0).st.localTs ≤ D.radius e.1 * (1 / max (own c D e).speed c.eps) := by
    apply hts.all
    by_cases hl : Later D e
    · obtain ⟨m, hm, hlt⟩ := hl
      have hme := (hC.symm e m hm).1
      have hsw := own_swap c D hC hH hm
      have hsp : (own c D m).speed = (own c D e).speed := by rw [hsw]
      have hfm : D.full m.1 = true := by
        by_contra hg
        have := hO e.1 m.1 hf (by simpa using hg)
        unfold pos at hlt
        have h2 := e.2.2
        have h3 := m.2.2
        have : e.1.1 < m.1.1 := this
        omega
      refine ⟨m, mem_edgeList m, hU m, ?_, hfm, by rw [hsp]; exact hs, Or.inr ⟨e, hme, by rw [hsp]⟩⟩
      rintro ⟨m', hm', hlt'⟩
      rw [hme] at hm'; cases hm'; omega
    · exact ⟨e, mem_edgeList e, hU e, hl, hf, hs, Or.inl rfl⟩
  rw [ht]
  rw [max_eq_left hs.le, mul_one_div] at hB
  exact (le_div_iff₀ hpos).1 hB

/-- C43: the timestep is the largest such value (or the initial `1e100`): it is attained at an edge of an owned triangle,
with the radius of that triangle or of its neighbour. -/
theorem C43_timestep_is_attained (c : Consts K) (heps : 0 ≤ c.eps) (D : Dom N K) (hC : Conforming D)
    (hU : ∀ e, D.update e = true) (hI : D.allowIncrease = true) (call : ℤ) (dt : K) (s0 : FSt N K)
    (hM : ∀ e, s0.mark e < call) :
    let t := (computeFluxes c D call true dt s0).timestep
    t = 10 ^ 100 ∨ ∃ e, D.full e.1 = true ∧ c.eps < edgeSpeed c D e ∧
      (t * edgeSpeed c D e = D.radius e.1 ∨ ∃ m, D.nbr e = some m ∧ t * edgeSpeed c D e = D.radius m.1) := by
  have hts := ts_spec c D hC.symm (fun e m _ => by rw [hU, hU]) call dt s0 (fun e => ne_of_lt (hM e))
  have ht : (computeFluxes c D call true dt s0).timestep = (computeFluxes c D call true dt s0).st.localTs := rfl
  rw [ht]
  rcases hts.attained with h | ⟨e, _, _, _, hf, hs, h⟩
  · left; rw [h, hI]; rfl
  · right
    have hpos : 0 < (own c D e).speed := lt_of_le_of_lt heps hs
    have hne := ne_of_gt hpos
    have key : ∀ r : K, r * (1 / max (own c D e).speed c.eps) * (own c D e).speed = r := by
      intro r; rw [max_eq_left hs.le]; field_simp
    refine ⟨e, hf, hs, ?_⟩
    rcases h with h | ⟨m, hm, h⟩
    · left; rw [h]; exact key _
    · right; exact ⟨m, hm, by rw [h]; exact key _⟩

/-- C43: the later substeps return the timestep they were given. -/
theorem C43_later_substeps_keep (c : Consts K) (D : Dom N K) (call : ℤ) (dt : K) (s0 : FSt N K) :
    (computeFluxes c D call false dt s0).timestep = dt := rfl

/-- With a ghost numbered before an owned triangle the bound fails: the edge between them is only visited from the ghost,
which does not count. -/
theorem C43_not_with_ghost_first :
    ∃ (D : Dom 2 ℚ) (s0 : FSt 2 ℚ), Conforming D ∧ (∀ e, HeadsOk (edgeIn D e (wallRank D e - 1))) ∧
      (∀ e, D.update e = true) ∧ (∀ e, s0.mark e < 1) ∧ ∃ e, D.full e.1 = true ∧
      D.radius e.1 < (computeFluxes sampleC D 1 true 0 s0).timestep * edgeSpeed sampleC D e := by
  refine ⟨sampleF ![false, true], sampleS, sampleF_conforming _, by decide +kernel, fun _ => rfl, fun _ => zero_lt_one,
    (1, 0), rfl, by decide +kernel⟩

/-! ## The hypotheses can be met -/

theorem sampleD_reflective : ∀ e, sampleD.nbr e = none → ReflectiveEdge sampleD e := by
  intro e he
  have h : ∀ e, sampleD.nbr e = none → Unit (sampleD.normal e).1 (sampleD.normal e).2 ∧ sampleD.wall e = false ∧
      sampleD.heightE e = (sampleD.qE e).w - sampleD.bedE e ∧ 0 ≤ sampleD.heightE e := by
    unfold Unit; decide +kernel
  obtain ⟨h1, h2, h3, h4⟩ := h e he
  exact ⟨he, rfl, h1, h2, h3, h4⟩

/-- C11, C14, C42, C43 apply to the sample: water moves between the triangles, the volume is kept, and the two routines
agree on a positive timestep. -/
example : ∑ k, sampleD.area k * ((computeFluxes sampleC sampleD 1 true 0 sampleS).upd k).w = 0 :=
  C14_closed_domain_keeps_volume sampleC sampleD sampleD_conforming.symm (fun _ => by norm_num [sampleD, sampleF])
    (fun _ => rfl) (fun _ => rfl) 1 true 0 sampleS (fun _ => zero_lt_one) (fun _ _ _ => by simp [sampleS]) sampleD_reflective

example : ((computeFluxes sampleC sampleD 1 true 0 sampleS).upd 0).w < 0 := by decide +kernel

example : let r := computeFluxes sampleC sampleD 1 true 0 sampleS
    (r.upd, r.bsum, r.timestep) = computeFluxesMp sampleC sampleD true 0 :=
  C42_serial_equals_parallel sampleC sampleD sampleD_conforming sampleD_heads (fun _ => rfl) (fun _ => rfl) rfl 1 true 0
    sampleS (fun _ => zero_lt_one)

example : (computeFluxes sampleC sampleD 1 true 0 sampleS).timestep * edgeSpeed sampleC sampleD (0, 0) ≤ 1 ∧
    0 < (computeFluxes sampleC sampleD 1 true 0 sampleS).timestep :=
  ⟨C43_timestep_is_stable sampleC (by decide +kernel) sampleD sampleD_conforming sampleD_heads (fun _ => rfl)
    (fun _ _ _ h => by cases h) 1 0 sampleS (fun _ => zero_lt_one) (0, 0) rfl (by decide +kernel), by decide +kernel⟩

/-- C11 after two calls with different data, the second refreshing only some edges. -/
def sampleY : FluxCall 2 ℚ :=
  ⟨{ sampleD with bval := fun _ => ⟨5, 0, 0⟩, update := fun e => e.2 = 1 }, 2, false, 0⟩

def sampleR : FluxRes 2 ℚ :=
  computeFluxes sampleC sampleY.D sampleY.call sampleY.first sampleY.dt
    (runCalls sampleC sampleS [⟨sampleD, 1, true, 0⟩])

example : volumeRate sampleY.D sampleR.upd = sampleR.bsum ∧ sampleR.bsum ≠ 0 :=
  ⟨C11_mass_balance sampleC sampleD.nbr sampleD_conforming.symm sampleS (fun _ => rfl) [⟨sampleD, 1, true, 0⟩]
    (fun x hx => by rw [List.mem_singleton.1 hx]) sampleY rfl (fun _ => by norm_num [sampleY, sampleD, sampleF]),
    by decide +kernel⟩

/-- A domain for C12: edge values are the centroid values, depth is measured from a flat bed. -/
def sampleDom (_ : ℚ) (p : Fin 2 × Fin 3 → ℚ) : Dom 2 ℚ :=
  { sampleD with
    qE := fun e => ⟨p (e.1, 0), p (e.1, 1), p (e.1, 2)⟩, bedE := fun _ => 0, heightE := fun e => p (e.1, 0),
    stageC := fun k => p (k, 0), heightC := fun k => p (k, 0), bval := fun _ => ⟨1, 0, 0⟩ }

def sampleEnv : Verif.Quantity.Env ℚ (Fin 2 × Fin 3) :=
  { distribute := fun p i => if i.2 = 0 then max (p i) 0 else p i
    expl := fun t p i =>
      let u := (fluxAt sampleC sampleDom (fun _ _ => sampleS) (fun _ _ => 1) (fun _ => true) t p).upd i.1
      ![u.w, u.x, u.y] i.2
    semi := fun _ _ _ => 0
    dt := fun _ _ => 1 / 100
    ghosts := fun q => q
    ghostLayerThin := true }

/-- C12 applies: the hypotheses hold and a step succeeds with a nonzero boundary flux. -/
example : OnlyFluxes sampleEnv sampleC sampleDom (fun _ _ => sampleS) (fun _ _ => 1) (fun _ => true) (fun _ => true)
    (fun _ => 6) where
  expl := fun _ _ _ => rfl
  semi := fun _ _ _ => rfl
  symm := fun _ _ => sampleD_conforming.symm
  bal := fun _ _ _ _ _ => by simp [sampleS]
  fullEq := fun _ _ => rfl
  areaEq := fun _ _ => rfl
  areaNe := fun _ => by norm_num

example : (runSteps sampleC sampleDom (fun _ _ => sampleS) (fun _ _ => 1) (fun _ => true) (fun _ => true) (fun _ => 6)
      (fun _ => 0) sampleEnv [.rk2, .euler] ⟨0, fun i => if i.2 = 0 then 2 else 1, 0, 0⟩).isSome = true ∧
    (fluxAt sampleC sampleDom (fun _ _ => sampleS) (fun _ _ => 1) (fun _ => true) 0
      (fun i => if i.2 = 0 then 2 else 1)).bsum ≠ 0 := by decide +kernel

/-! ## C44 -/

/-- Between groups the next call of a domain with the current `fluxcalls` starts a new group. -/
def Aligned (s : Counter) : Prop := s.base ≤ s.call + 1 ∧ (s.call + 1 - s.base) % s.fluxcalls = 0

theorem countGroup (n : ℕ) (hn : 0 < n) (s : Counter) (h : Aligned s) (j : ℕ) (hj : j ≤ n) :
    (countCalls s (List.replicate j n)).1 = List.range j ∧
    (0 < j → (countCalls s (List.replicate j n)).2.fluxcalls = n ∧
      (countCalls s (List.replicate j n)).2.base ≤ (countCalls s (List.replicate j n)).2.call ∧
      ((countCalls s (List.replicate j n)).2.call - (countCalls s (List.replicate j n)).2.base) % n = j - 1) := by
  have happ : ∀ (L M : List ℕ) (s : Counter), countCalls s (L ++ M) =
      ((countCalls s L).1 ++ (countCalls (countCalls s L).2 M).1, (countCalls (countCalls s L).2 M).2) := by
    intro L
    induction L with
    | nil => intro M s; rfl
    | cons a L ih => intro M s; simp only [List.cons_append, countCalls, ih]
  induction j with
  | zero => simp [countCalls]
  | succ j ih =>
    obtain ⟨h1, h2⟩ := ih (by omega)
    rw [List.replicate_succ', happ, h1, List.range_succ]
    rcases Nat.eq_zero_or_pos j with rfl | hj0
    · obtain ⟨hb, hm⟩ := h
      simp only [List.replicate_zero, countCalls, countCall, List.range_zero, List.nil_append]
      by_cases hne : n ≠ s.fluxcalls
      · rw [if_pos hne]; simp
      · push Not at hne
        rw [if_neg (by simpa using hne)]
        subst hne
        simp [hm, hb]
    · obtain ⟨g1, g2, g3⟩ := h2 hj0
      generalize (countCalls s (List.replicate j n)).2 = r at *
      simp only [countCalls, countCall]
      rw [if_neg (by simp [g1])]
      have key : (r.call + 1 - r.base) % n = j := by
        have : r.call + 1 - r.base = (r.call - r.base) + 1 := by omega
        rw [this, Nat.add_mod, g3]
        rcases Nat.lt_or_ge 1 n with h1n | h1n
        · rw [Nat.mod_eq_of_lt h1n, Nat.sub_add_cancel hj0]
          exact Nat.mod_eq_of_lt (by omega)
        · omega
      refine ⟨by simp [key], fun _ => ⟨g1, by simp; omega, ?_⟩⟩
      simp [key]

/-- C44: however the domains of a program take turns, as long as each makes its flux calls in complete groups of
`timestep_fluxcalls`, every group sees the substep numbers 0, 1, ..., so boundary fluxes land in the right slots and the
timestep is computed by the first call of each group. -/
theorem C44_substeps_aligned (ns : List ℕ) (hn : ∀ n ∈ ns, 0 < n) :
    (countCalls counterInit (ns.flatMap (fun n => List.replicate n n))).1 = ns.flatMap List.range := by
  have happ : ∀ (L M : List ℕ) (s : Counter), countCalls s (L ++ M) =
      ((countCalls s L).1 ++ (countCalls (countCalls s L).2 M).1, (countCalls (countCalls s L).2 M).2) := by
    intro L
    induction L with
    | nil => intro M s; rfl
    | cons a L ih => intro M s; simp only [List.cons_append, countCalls, ih]
  suffices H : ∀ s, Aligned s → (countCalls s (ns.flatMap (fun n => List.replicate n n))).1 = ns.flatMap List.range from
    H counterInit ⟨by decide, by decide⟩
  induction ns with
  | nil => intro s _; rfl
  | cons n ns ih =>
    intro s hs
    have hn0 := hn n (by simp)
    obtain ⟨g1, g2⟩ := countGroup n hn0 s hs n le_rfl
    obtain ⟨k1, k2, k3⟩ := g2 hn0
    rw [List.flatMap_cons, happ, List.flatMap_cons, g1]
    simp only
    rw [ih (fun m hm => hn m (List.mem_cons_of_mem _ hm))]
    refine ⟨by omega, ?_⟩
    rw [k1]
    have e : ∀ a b : ℕ, b ≤ a → a + 1 - b = (a - b) + 1 := by intros; omega
    rw [e _ _ k2, Nat.add_mod, k3]
    rcases Nat.lt_or_ge 1 n with h1n | h1n
    · rw [Nat.mod_eq_of_lt h1n, Nat.sub_add_cancel hn0, Nat.mod_self]
    · have : n = 1 := by omega
      subst this; rfl

example : (countCalls counterInit [2, 2, 3, 3, 3, 3, 3, 3, 1]).1 = [0, 1, 0, 1, 2, 0, 1, 2, 0] := by decide

/-- C44 negated for incomplete groups: one extra flux computation (such as a user calling `compute_fluxes` once between
steps) shifts every later rk2 step, whose second substep is then taken for the first. -/
theorem C44_not_after_stray_call :
    (countCalls counterInit ([2, 2] ++ [2] ++ [2, 2])).1 = [0, 1, 0, 1, 0] := by decide

end Verif.Flux
