import Verif.ParInlet.PropsStep
import Verif.Region.Props

/-! # C96: failures, the books, which processors share an inlet and the parts of a region -/

set_option linter.unusedSectionVars false

namespace Verif.ParInlet

open Verif.Ops

variable {K : Type*} [Field K] [LinearOrder K] [IsStrictOrderedRing K] {N : ℕ → ℕ} {n : ℕ}

/-- **C96.** A step of a shared inlet fails exactly when the step on one processor does: the water in the inlet is negative in total, or
the discharge has no value at one of the two times. -/
theorem C96_fails (srt srt0 : Argsort K) (hsrt : GoodSort srt) (hsrt0 : GoodSort srt0) (top : K) (d0 : Dom K n)
    (ha : ∀ i, 0 < d0.area i) (d : Doms K N) (had : ∀ p i, 0 < (d p).area i) (op0 : InletOp K n) (hne : op0.tri ≠ [])
    (hnd : op0.tri.Nodup) (ops : InletOps K N) (master : ℕ) (procs : List ℕ) (hm : master ∈ procs) (hl : Listed ops procs)
    (home : (p : ℕ) → Fin (N p) → Fin n) (h : Shared d0 op0.tri d ops procs home) (hargs : SameArgs op0 ops procs)
    (s0 : State K n) (s : States K N) (hs : SameFlow s0 s ops procs home) (htop : Below top s ops procs) (t dt : K) (hdt : dt ≠ 0) :
    ((∃ e, call srt top d ops s master procs t dt = .error e) ↔ ∃ e, op0.call srt0 d0 s0 t dt = .error e) ∧
    ((∃ e, call srt top d ops s master procs t dt = .error e) ↔
      sharedWater d s ops procs < 0 ∨ wantedQ op0 t = none ∨ wantedQ op0 (t + dt) = none) := by
  have hQ : ∀ t, updateQ (ops master) t = updateQ op0 t := by
    intro t
    obtain ⟨h1, h2, -, -⟩ := hargs master hm
    unfold updateQ InletOp.updateQ
    rw [h1, h2]
  have hwat := water_same d0 op0.tri d ops procs home h s0 s hs
  have none_iff : ∀ t, wantedQ op0 t = none ↔ ∃ e, op0.updateQ t = .error e := by
    intro t
    unfold InletOp.updateQ wantedQ
    cases op0.q t <;> cases op0.default <;> simp
  have key : (∃ e, call srt top d ops s master procs t dt = .error e) ↔ ∃ e, op0.call srt0 d0 s0 t dt = .error e := by
    constructor
    · rintro ⟨e, he⟩
      cases hc : op0.call srt0 d0 s0 t dt with
      | error e => exact ⟨e, rfl⟩
      | ok r =>
        obtain ⟨ops', s', h1, -⟩ := C96_same srt srt0 hsrt hsrt0 top d0 ha d had op0 hne hnd ops master procs hm hl home h hargs s0 s hs
          htop t dt hdt r.1 r.2 hc
        rw [h1] at he
        cases he
    · intro he
      rw [C30_fails srt0 d0 op0 s0 t dt hnd, none_iff, none_iff] at he
      unfold call
      simp only
      rw [hQ, hQ, globalVolume_eq d s ops master procs hm hl, hwat]
      unfold updateQ
      rcases he with he | ⟨e, he⟩ | ⟨e, he⟩
      · simp only [ge_iff_le, not_le.2 he, if_false]
        cases op0.updateQ t with
        | error e => exact ⟨_, rfl⟩
        | ok q1 =>
          cases op0.updateQ (t + dt) with
          | error e => exact ⟨_, rfl⟩
          | ok q2 => exact ⟨_, rfl⟩
      · rw [he]
        exact ⟨_, rfl⟩
      · rw [he]
        cases op0.updateQ t with
        | error e => exact ⟨_, rfl⟩
        | ok q1 => exact ⟨_, rfl⟩
  refine ⟨key, key.trans ?_⟩
  rw [C30_fails srt0 d0 op0 s0 t dt hnd, hwat]

/-! ## The books -/

theorem volumeIntegral_eq (np : ℕ) (hnp : 0 < np) (s : States K N) : volumeIntegral np s = ∑ p ∈ Finset.range np, (s p).booked := by
  unfold volumeIntegral
  obtain ⟨m, rfl⟩ : ∃ m, np = m + 1 := ⟨np - 1, by omega⟩
  have h1 : ∀ (l : List ℕ) (a : K), l.foldl (fun acc i => acc + (s i).booked) a = a + (l.map fun i => (s i).booked).sum := by
    intro l
    induction l with
    | nil => intro a; simp
    | cons i is ih => intro a; rw [List.foldl_cons, ih, List.map_cons, List.sum_cons, add_assoc]
  rw [h1, List.range_succ_eq_map, List.tail_cons, List.map_map, Finset.sum_range_succ', add_comm]
  rfl

/-- **C96.** The books after a step: the water in the inlet changes by the applied volume, and each processor that shares the inlet adds
that volume to its own account. So the volume integral reported for the whole run, which is the sum over all processors, grows by the
applied volume times the number of processors that share the inlet: it is the water that was added only if the inlet lies on one
processor. -/
theorem C96_books (srt srt0 : Argsort K) (hsrt : GoodSort srt) (hsrt0 : GoodSort srt0) (top : K) (d0 : Dom K n)
    (ha : ∀ i, 0 < d0.area i) (d : Doms K N) (had : ∀ p i, 0 < (d p).area i) (op0 : InletOp K n) (hne : op0.tri ≠ [])
    (hnd : op0.tri.Nodup) (ops : InletOps K N) (master : ℕ) (procs : List ℕ) (hm : master ∈ procs) (hl : Listed ops procs)
    (home : (p : ℕ) → Fin (N p) → Fin n) (h : Shared d0 op0.tri d ops procs home) (hargs : SameArgs op0 ops procs)
    (s0 : State K n) (s : States K N) (hs : SameFlow s0 s ops procs home) (htop : Below top s ops procs) (t dt : K) (hdt : dt ≠ 0)
    (ops' : InletOps K N) (s' : States K N) (hcall : call srt top d ops s master procs t dt = .ok (ops', s'))
    (np : ℕ) (hnp : ∀ p ∈ procs, p < np) (q1 q2 : K) (h1 : wantedQ op0 t = some q1) (h2 : wantedQ op0 (t + dt) = some q2) :
    let request := 1 / 2 * (q1 + q2) * dt
    let applied := max request (-sharedWater d s ops procs)
    sharedWater d s' ops procs = sharedWater d s ops procs + applied ∧
      (∀ p ∈ procs, (ops' p).totalApplied = (ops p).totalApplied + applied ∧ (ops' p).totalRequested = (ops p).totalRequested + request ∧
        (ops' p).appliedQ * dt = applied ∧ (s' p).booked = (s p).booked + applied) ∧
      volumeIntegral np s' = volumeIntegral np s + procs.length * applied := by
  simp only
  cases hc : op0.call srt0 d0 s0 t dt with
  | error e =>
    obtain ⟨e', he'⟩ := (C96_fails srt srt0 hsrt hsrt0 top d0 ha d had op0 hne hnd ops master procs hm hl home h hargs s0 s hs
      htop t dt hdt).1.2 ⟨e, hc⟩
    rw [he'] at hcall
    cases hcall
  | ok r =>
    obtain ⟨op0', s0'⟩ := r
    obtain ⟨ops'', s'', g1, g2, g3, -, -⟩ := C96_same srt srt0 hsrt hsrt0 top d0 ha d had op0 hne hnd ops master procs hm hl home h hargs
      s0 s hs htop t dt hdt op0' s0' hc
    rw [g1] at hcall
    simp only [Except.ok.injEq, Prod.mk.injEq] at hcall
    obtain ⟨rfl, rfl⟩ := hcall
    obtain ⟨b1, b2, b3, b4, b5, -⟩ := C30_books srt0 hsrt0 d0 op0 op0' s0 s0' t dt hne hnd ha hdt hc q1 q2 h1 h2
    have hw := water_same d0 op0.tri d ops procs home h s0 s hs
    have hw' := water_same d0 op0.tri d ops procs home h s0' s'' g2
    rw [hw, hw', b1]
    have hb : ∀ p ∈ procs, (s'' p).booked = (s p).booked + max (1 / 2 * (q1 + q2) * dt) (-waterIn d0 s0 op0.tri.toFinset) := by
      intro p hp
      have := g3.booked p hp
      linarith
    refine ⟨rfl, fun p hp => ⟨?_, ?_, ?_, hb p hp⟩, ?_⟩
    · have := g3.applied p hp
      linarith
    · have := g3.requested p hp
      linarith
    · rw [g3.appliedQ p hp, b5]
    · have hpos : 0 < np := lt_of_le_of_lt (Nat.zero_le _) (hnp master hm)
      rw [volumeIntegral_eq np hpos, volumeIntegral_eq np hpos]
      have hsub : procs.toFinset ⊆ Finset.range np := fun p hp => Finset.mem_range.2 (hnp p (by simpa using hp))
      rw [← Finset.sum_sdiff hsub, ← Finset.sum_sdiff hsub (f := fun p => (s p).booked)]
      have e1 : ∑ p ∈ Finset.range np \ procs.toFinset, (s'' p).booked = ∑ p ∈ Finset.range np \ procs.toFinset, (s p).booked := by
        refine Finset.sum_congr rfl fun p hp => ?_
        rw [(g3.others p (by simpa using (Finset.mem_sdiff.1 hp).2)).1]
      have e2 : ∑ p ∈ procs.toFinset, (s'' p).booked = ∑ p ∈ procs.toFinset, (s p).booked +
          procs.length * max (1 / 2 * (q1 + q2) * dt) (-waterIn d0 s0 op0.tri.toFinset) := by
        rw [Finset.sum_congr rfl fun p hp => hb p (by simpa using hp), Finset.sum_add_distrib, Finset.sum_const,
          List.toFinset_card_of_nodup hl.1, nsmul_eq_mul]
      rw [e1, e2]
      ring

/-! ## Which processors share an inlet -/

theorem alloc_loop (coord : ℕ) (ans : ℕ → Answer) :
    ∀ (todo : List ℕ) (a a' : Alloc), todo.foldlM (allocStep coord ans) a = .ok a' →
      (a'.procs = a.procs ++ todo.filter fun i => i ≠ coord ∧ 0 < (ans i).size) := by
  intro todo
  induction todo with
  | nil =>
    intro a a' h
    simp only [List.foldlM_nil, pure, Except.pure, Except.ok.injEq] at h
    simp [h]
  | cons i is ih =>
    intro a a' h
    rw [List.foldlM_cons] at h
    cases hs : allocStep coord ans a i with
    | error e => rw [hs] at h; cases h
    | ok a1 =>
      rw [hs] at h
      have := ih a1 a' h
      rw [this]
      have h1 : a1.procs = a.procs ++ if i ≠ coord ∧ 0 < (ans i).size then [i] else [] := by
        unfold allocStep at hs
        simp only at hs
        split_ifs at hs with c1 c2 c3 c4 c5 <;> simp only [Except.ok.injEq] at hs <;> subst hs <;> simp_all
      rw [h1, List.filter_cons]
      by_cases hc : i ≠ coord ∧ 0 < (ans i).size
      · simp [hc]
      · simp [hc]

/-- Invariant of the loop for the master. -/
def MasterOk (ans : ℕ → Answer) (a : Alloc) : Prop :=
  (a.procs = [] ∧ a.master = -1 ∧ a.maxSize = -1) ∨
    ∃ m : ℕ, a.master = m ∧ m ∈ a.procs ∧ a.maxSize = (ans m).size ∧ ∀ p ∈ a.procs, (ans p).size ≤ (ans m).size

theorem allocStep_master (coord : ℕ) (ans : ℕ → Answer) (a a' : Alloc) (i : ℕ) (h : allocStep coord ans a i = .ok a')
    (ha : MasterOk ans a) : MasterOk ans a' := by
  unfold allocStep at h
  simp only at h
  -- only `procs`, `maxSize` and `master` matter
  have main : ∀ b : Alloc, 0 < (ans i).size →
      (b.procs = a.procs ++ [i] ∧ b.maxSize = (if ((ans i).size : ℤ) > a.maxSize then ((ans i).size : ℤ) else a.maxSize) ∧
        b.master = (if ((ans i).size : ℤ) > a.maxSize then (i : ℤ) else a.master)) → MasterOk ans b := by
    rintro b hpos ⟨h1, h2, h3⟩
    right
    rcases ha with ⟨e1, e2, e3⟩ | ⟨m, e1, e2, e3, e4⟩
    · have hgt : ((ans i).size : ℤ) > a.maxSize := by rw [e3]; omega
      rw [if_pos hgt] at h2 h3
      refine ⟨i, h3, by rw [h1]; simp, h2, fun p hp => ?_⟩
      rw [h1, e1, List.nil_append, List.mem_singleton] at hp
      rw [hp]
    · by_cases hgt : ((ans i).size : ℤ) > a.maxSize
      · rw [if_pos hgt] at h2 h3
        refine ⟨i, h3, by rw [h1]; simp, h2, fun p hp => ?_⟩
        rw [h1, List.mem_append, List.mem_singleton] at hp
        rcases hp with hp | rfl
        · have := e4 p hp
          rw [e3] at hgt
          omega
        · exact le_refl _
      · rw [if_neg hgt] at h2 h3
        refine ⟨m, h3.trans e1, by rw [h1]; simp [e2], h2.trans e3, fun p hp => ?_⟩
        rw [h1, List.mem_append, List.mem_singleton] at hp
        rcases hp with hp | rfl
        · exact e4 p hp
        · rw [e3] at hgt
          omega
  split_ifs at h with c1 c2 c3 c4 c5 c6 <;> simp only [Except.ok.injEq] at h <;> subst h
  · exact ha
  · exact main _ c2 ⟨rfl, (if_pos c5).symm, (if_pos c5).symm⟩
  · exact main _ c2 ⟨rfl, (if_neg c5).symm, (if_neg c5).symm⟩
  · exact main _ c2 ⟨rfl, (if_pos (by assumption)).symm, (if_pos (by assumption)).symm⟩
  · exact main _ c2 ⟨rfl, (if_neg (by assumption)).symm, (if_neg (by assumption)).symm⟩
  · exact ha

theorem foldlM_master (coord : ℕ) (ans : ℕ → Answer) :
    ∀ (todo : List ℕ) (a a' : Alloc), todo.foldlM (allocStep coord ans) a = .ok a' → MasterOk ans a → MasterOk ans a' := by
  intro todo
  induction todo with
  | nil =>
    intro a a' h ha
    simp only [List.foldlM_nil, pure, Except.pure, Except.ok.injEq] at h
    rw [← h]
    exact ha
  | cons i is ih =>
    intro a a' h ha
    rw [List.foldlM_cons] at h
    cases hs : allocStep coord ans a i with
    | error e => rw [hs] at h; cases h
    | ok a1 =>
      rw [hs] at h
      exact ih a1 a' h (allocStep_master coord ans a a1 i hs ha)

/-- The enquiry point among the processors seen. -/
def EnqOk (ans : ℕ → Answer) (seen : List ℕ) (a : Alloc) : Prop :=
  (a.enquiry = -1 ∧ ∀ p ∈ seen, (ans p).enquiry = false) ∨
    ∃ e : ℕ, e ∈ seen ∧ a.enquiry = e ∧ (ans e).enquiry = true ∧ ∀ p ∈ seen, (ans p).enquiry = true → p = e

/-- Two processors claim the enquiry point. -/
def Twice (ans : ℕ → Answer) (seen : List ℕ) : Prop :=
  ∃ p ∈ seen, ∃ q ∈ seen, p ≠ q ∧ (ans p).enquiry = true ∧ (ans q).enquiry = true

theorem enq_loop (coord : ℕ) (ans : ℕ → Answer) (hans : ∀ p, (ans p).enquiry = true → 0 < (ans p).size) :
    ∀ (todo seen : List ℕ) (a : Alloc), coord ∈ seen → EnqOk ans seen a → (seen ++ todo.filter (· ≠ coord)).Nodup →
      (∀ a', todo.foldlM (allocStep coord ans) a = .ok a' → EnqOk ans (seen ++ todo) a') ∧
      ((∃ e, todo.foldlM (allocStep coord ans) a = .error e) ↔ Twice ans (seen ++ todo)) := by
  intro todo
  induction todo with
  | nil =>
    intro seen a _ ha _
    refine ⟨fun a' h => ?_, ?_⟩
    · simp only [List.foldlM_nil, pure, Except.pure, Except.ok.injEq] at h
      rw [← h, List.append_nil]
      exact ha
    · simp only [List.foldlM_nil, pure, Except.pure, reduceCtorEq, exists_false, List.append_nil, false_iff]
      rintro ⟨p, hp, q, hq, hne, h1, h2⟩
      rcases ha with ⟨-, h⟩ | ⟨e, -, -, -, h⟩
      · rw [h p hp] at h1
        cases h1
      · exact hne ((h p hp h1).trans (h q hq h2).symm)
  | cons i is ih =>
    intro seen a hc ha hnd
    rw [List.foldlM_cons]
    by_cases hi : i = coord
    · have hs : allocStep coord ans a i = .ok a := by unfold allocStep; rw [if_pos hi]
      rw [hs]
      simp only [bind, Except.bind]
      have hmem : ∀ p, p ∈ seen ++ i :: is ↔ p ∈ seen ++ is := by
        intro p
        rw [hi]
        simp only [List.mem_append, List.mem_cons]
        constructor
        · rintro (h | rfl | h)
          exacts [Or.inl h, Or.inl hc, Or.inr h]
        · rintro (h | h)
          exacts [Or.inl h, Or.inr (Or.inr h)]
      have := ih seen a hc ha (by rw [hi] at hnd; simpa using hnd)
      refine ⟨fun a' h => ?_, this.2.trans ?_⟩
      · have h3 := this.1 a' h
        unfold EnqOk at h3 ⊢
        simp only [hmem]
        exact h3
      · unfold Twice
        simp only [hmem]
    · rw [List.filter_cons, if_pos (by simpa using hi)] at hnd
      have hns : i ∉ seen := by
        intro hm
        have := List.nodup_append.1 hnd
        exact this.2.2 i hm i (by simp) rfl
      have happ : seen ++ i :: is = (seen ++ [i]) ++ is := by simp
      have hnd' : ((seen ++ [i]) ++ is.filter (· ≠ coord)).Nodup := by simpa using hnd
      cases hq : (ans i).enquiry with
      | false =>
        obtain ⟨a1, hs, he⟩ : ∃ a1, allocStep coord ans a i = .ok a1 ∧ a1.enquiry = a.enquiry := by
          unfold allocStep
          rw [if_neg hi]
          simp only [hq, Bool.false_eq_true, if_false]
          split_ifs
          all_goals exact ⟨_, rfl, rfl⟩
        rw [hs, happ]
        simp only [bind, Except.bind]
        refine ih (seen ++ [i]) a1 (by simp [hc]) ?_ hnd'
        rcases ha with ⟨h1, h2⟩ | ⟨e, h1, h2, h3, h4⟩
        · refine Or.inl ⟨he.trans h1, fun p hp => ?_⟩
          rcases List.mem_append.1 hp with hp | hp
          · exact h2 p hp
          · rw [List.mem_singleton.1 hp, hq]
        · refine Or.inr ⟨e, by simp [h1], he.trans h2, h3, fun p hp hpe => ?_⟩
          rcases List.mem_append.1 hp with hp | hp
          · exact h4 p hp hpe
          · rw [List.mem_singleton.1 hp, hq] at hpe
            cases hpe
      | true =>
        have hsz := hans i hq
        rcases ha with ⟨h1, h2⟩ | ⟨e, h1, h2, h3, h4⟩
        · obtain ⟨a1, hs, he⟩ : ∃ a1, allocStep coord ans a i = .ok a1 ∧ a1.enquiry = i := by
            unfold allocStep
            rw [if_neg hi, if_pos hsz]
            simp only [hq, h1]
            exact ⟨_, rfl, rfl⟩
          rw [hs, happ]
          simp only [bind, Except.bind]
          refine ih (seen ++ [i]) a1 (by simp [hc]) (Or.inr ⟨i, by simp, he, hq, fun p hp hpe => ?_⟩) hnd'
          rcases List.mem_append.1 hp with hp | hp
          · rw [h2 p hp] at hpe
            cases hpe
          · exact List.mem_singleton.1 hp
        · have hs : allocStep coord ans a i = .error .assertion := by
            unfold allocStep
            rw [if_neg hi, if_pos hsz]
            simp only [hq, h2]
            rw [if_pos trivial, if_neg (by omega)]
          rw [hs]
          simp only [bind, Except.bind]
          refine ⟨fun a' h => (by cases h), ?_⟩
          refine iff_of_true ⟨_, rfl⟩ ⟨e, by simp [h1], i, by simp, ?_, h3, hq⟩
          rintro rfl
          exact hns h1

theorem start_enq (coord : ℕ) (ans : ℕ → Answer) (hpe : ∀ p, (ans p).enquiry = true → 0 < (ans p).size) (start : Alloc)
    (hst : (if (ans coord).size > 0 then (⟨[coord], ((ans coord).size : ℤ), coord, if (ans coord).enquiry then coord else -1⟩ : Alloc)
      else ⟨[], -1, -1, -1⟩) = start) : EnqOk ans [coord] start := by
  rw [← hst]
  split_ifs with c d
  · exact Or.inr ⟨coord, by simp, rfl, d, fun p hp _ => List.mem_singleton.1 hp⟩
  · exact Or.inl ⟨rfl, fun p hp => by rw [List.mem_singleton.1 hp]; simpa using d⟩
  · refine Or.inl ⟨rfl, fun p hp => ?_⟩
    rw [List.mem_singleton.1 hp]
    by_contra hcon
    exact c (hpe coord (by simpa using hcon))

/-- **C96.** Who shares an inlet: exactly the processors with a triangle of it (or, if there is one, with its enquiry point), each
once; the master is one of those with the most; the enquiry point is on the one processor that has it. -/
theorem C96_allocate (coord : ℕ) (procs : List ℕ) (hnd : procs.Nodup) (hc : coord ∈ procs) (tris : ℕ → ℕ) (found : ℕ → Bool)
    (wanted : Bool) (a : Alloc)
    (h : allocate coord procs (fun p => answer (tris p) (found p)) wanted = .ok a) :
    a.procs.Nodup ∧ (∀ p, p ∈ a.procs ↔ p ∈ procs ∧ (0 < tris p ∨ found p = true)) ∧
      (∃ m : ℕ, a.master = m ∧ m ∈ a.procs ∧
        ∀ p ∈ procs, (tris p + if found p then 1 else 0) ≤ tris m + if found m then 1 else 0) ∧
      (wanted = true → ∃ e ∈ a.procs, a.enquiry = (e : ℤ) ∧ found e = true ∧ ∀ p ∈ procs, found p = true → p = e) := by
  set ans : ℕ → Answer := fun p => answer (tris p) (found p) with hans
  have hsize : ∀ p, (ans p).size = tris p + if found p then 1 else 0 := by
    intro p
    show (answer (tris p) (found p)).size = _
    unfold answer
    cases found p <;> rfl
  have henq : ∀ p, (ans p).enquiry = found p := fun p => rfl
  have hpos : ∀ p, 0 < (ans p).size ↔ (0 < tris p ∨ found p = true) := by
    intro p
    rw [hsize]
    cases found p <;> simp
  have hpe : ∀ p, (ans p).enquiry = true → 0 < (ans p).size := fun p hp => (hpos p).2 (Or.inr hp)
  unfold allocate at h
  simp only at h
  generalize hst : (if (ans coord).size > 0 then (⟨[coord], ((ans coord).size : ℤ), coord, if (ans coord).enquiry then coord else -1⟩ : Alloc)
    else ⟨[], -1, -1, -1⟩) = start at h
  cases hf : procs.foldlM (allocStep coord ans) start with
  | error e => rw [hf] at h; cases h
  | ok b =>
    rw [hf] at h
    simp only at h
    split_ifs at h with c1 c2
    simp only [Except.ok.injEq] at h
    subst h
    have hloop := alloc_loop coord ans procs start b hf
    have hstart : start.procs = if 0 < (ans coord).size then [coord] else [] := by
      rw [← hst]
      split_ifs <;> rfl
    have hm0 : MasterOk ans start := by
      rw [← hst]
      by_cases c : (ans coord).size > 0
      · rw [if_pos c]
        exact Or.inr ⟨coord, rfl, by simp, rfl, fun p hp => by rw [List.mem_singleton.1 hp]⟩
      · rw [if_neg c]
        exact Or.inl ⟨rfl, rfl, rfl⟩
    have he0 : EnqOk ans [coord] start := start_enq coord ans hpe start hst
    have hndc : ([coord] ++ procs.filter (· ≠ coord)).Nodup := by
      rw [List.singleton_append, List.nodup_cons]
      exact ⟨by simp, hnd.filter _⟩
    have hmem : ∀ p, p ∈ b.procs ↔ p ∈ procs ∧ 0 < (ans p).size := by
      intro p
      rw [hloop, hstart, List.mem_append, List.mem_filter]
      constructor
      · rintro (hp | ⟨hp, hq⟩)
        · split_ifs at hp with c
          · rw [List.mem_singleton.1 hp]
            exact ⟨hc, c⟩
          · simp at hp
        · simp only [ne_eq, decide_eq_true_eq] at hq
          exact ⟨hp, hq.2⟩
      · rintro ⟨hp, hq⟩
        by_cases hpc : p = coord
        · left
          rw [hpc] at hq ⊢
          rw [if_pos hq]
          simp
        · right
          exact ⟨hp, by simpa using ⟨hpc, hq⟩⟩
    refine ⟨?_, fun p => (hmem p).trans (by rw [hpos]), ?_, ?_⟩
    · rw [hloop, hstart]
      have hf2 : (procs.filter fun i => i ≠ coord ∧ 0 < (ans i).size).Nodup := hnd.filter _
      split_ifs
      · rw [List.singleton_append, List.nodup_cons]
        exact ⟨by simp, hf2⟩
      · simpa using hf2
    · rcases foldlM_master coord ans procs start b hf hm0 with ⟨e1, -, -⟩ | ⟨m, e1, e2, e3, e4⟩
      · exact absurd (Or.inl e1) c1
      · refine ⟨m, e1, e2, fun p hp => ?_⟩
        rw [← hsize, ← hsize]
        rcases Nat.eq_zero_or_pos (ans p).size with hz | hz
        · rw [hz]
          exact Nat.zero_le _
        · exact e4 p ((hmem p).2 ⟨hp, hz⟩)
    · intro hwt
      rcases (enq_loop coord ans hpe procs [coord] start (by simp) he0 hndc).1 b hf with ⟨e1, -⟩ | ⟨e, e1, e2, e3, e4⟩
      · exact absurd ⟨hwt, by rw [e1]; omega⟩ c2
      · have he : e ∈ procs := by
          rcases List.mem_append.1 e1 with h1 | h1
          · rw [List.mem_singleton.1 h1]
            exact hc
          · exact h1
        exact ⟨e, (hmem e).2 ⟨he, hpe e e3⟩, e2, e3, fun p hp hpf => e4 p (by simp [hp]) hpf⟩

/-- **C96.** The allocation fails exactly when no processor has a triangle or the enquiry point, when the enquiry point is wanted and on
no processor, or when two processors claim it. -/
theorem C96_allocate_fails (coord : ℕ) (procs : List ℕ) (hnd : procs.Nodup) (hc : coord ∈ procs) (tris : ℕ → ℕ) (found : ℕ → Bool)
    (wanted : Bool) (hw : wanted = false → ∀ p, found p = false) :
    (∃ e, allocate coord procs (fun p => answer (tris p) (found p)) wanted = .error e) ↔
      (∀ p ∈ procs, tris p = 0 ∧ found p = false) ∨ (wanted = true ∧ ∀ p ∈ procs, found p = false) ∨
      ∃ p ∈ procs, ∃ q ∈ procs, p ≠ q ∧ found p = true ∧ found q = true := by
  constructor
  · intro herr
    by_contra hno
    push Not at hno
    obtain ⟨⟨p0, hp0, h0⟩, h1, h2⟩ := hno
    obtain ⟨e, he⟩ := herr
    set ans : ℕ → Answer := fun p => answer (tris p) (found p) with hans
    have hpe : ∀ p, (ans p).enquiry = true → 0 < (ans p).size := by
      intro p hp
      rw [hans]
      change found p = true at hp
      simp only [answer, hp, if_true]
      omega
    unfold allocate at he
    simp only at he
    generalize hst : (if (ans coord).size > 0 then (⟨[coord], ((ans coord).size : ℤ), coord, if (ans coord).enquiry then coord else -1⟩ : Alloc)
      else ⟨[], -1, -1, -1⟩) = start at he
    have hm0 : MasterOk ans start := by
      rw [← hst]
      by_cases c : (ans coord).size > 0
      · rw [if_pos c]
        exact Or.inr ⟨coord, rfl, by simp, rfl, fun p hp => by rw [List.mem_singleton.1 hp]⟩
      · rw [if_neg c]
        exact Or.inl ⟨rfl, rfl, rfl⟩
    have he0 : EnqOk ans [coord] start := start_enq coord ans hpe start hst
    have hndc : ([coord] ++ procs.filter (· ≠ coord)).Nodup := by
      rw [List.singleton_append, List.nodup_cons]
      exact ⟨by simp, hnd.filter _⟩
    obtain ⟨l1, l2⟩ := enq_loop coord ans hpe procs [coord] start (by simp) he0 hndc
    have hin : ∀ p, p ∈ [coord] ++ procs ↔ p ∈ procs := by
      intro p
      rw [List.singleton_append, List.mem_cons]
      constructor
      · rintro (rfl | h)
        exacts [hc, h]
      · exact Or.inr
    cases hf : procs.foldlM (allocStep coord ans) start with
    | error e' =>
      obtain ⟨p, hp, q, hq, hne, g1, g2⟩ := l2.1 ⟨e', hf⟩
      exact h2 p ((hin p).1 hp) q ((hin q).1 hq) hne g1 g2
    | ok b =>
      rw [hf] at he
      simp only at he
      have hb : b.procs ≠ [] := by
        intro hb
        have hloop := alloc_loop coord ans procs start b hf
        rw [hb] at hloop
        have hsz : 0 < (ans p0).size := by
          rw [hans]
          unfold answer
          simp only
          split_ifs with hf0
          · omega
          · by_contra hz
            exact hf0 (by simpa using h0 (by omega))
        obtain ⟨hl1, hl2⟩ := List.append_eq_nil_iff.1 hloop.symm
        by_cases hpc : p0 = coord
        · rw [← hst, ← hpc, if_pos hsz] at hl1
          cases hl1
        · have := List.filter_eq_nil_iff.1 hl2 p0 hp0
          exact this (by simpa using ⟨hpc, hsz⟩)
      rcases foldlM_master coord ans procs start b hf hm0 with ⟨e1, -, -⟩ | ⟨m, e1, -, -, -⟩
      · exact hb e1
      · rw [if_neg (by rintro (hx | hx); exacts [hb hx, by omega])] at he
        split_ifs at he with hwn
        obtain ⟨p, hp, hfp⟩ := h1 hwn.1
        rcases l1 b hf with ⟨-, g⟩ | ⟨e, -, g, -, -⟩
        · have := g p ((hin p).2 hp)
          change found p = false at this
          exact hfp this
        · omega
  · intro hh
    cases hr : allocate coord procs (fun p => answer (tris p) (found p)) wanted with
    | error e => exact ⟨e, rfl⟩
    | ok a =>
      obtain ⟨-, h2, ⟨m, -, h3, -⟩, h4⟩ := C96_allocate coord procs hnd hc tris found wanted a hr
      exfalso
      rcases hh with hz | ⟨hwt, hz⟩ | ⟨p, hp, q, hq, hne, hfp, hfq⟩
      · obtain ⟨hm, h5⟩ := (h2 m).1 h3
        obtain ⟨z1, z2⟩ := hz m hm
        rcases h5 with h5 | h5
        · omega
        · rw [z2] at h5
          cases h5
      · obtain ⟨e, he, -, hf, -⟩ := h4 hwt
        rw [hz e ((h2 e).1 he).1] at hf
        cases hf
      · cases hwt : wanted with
        | false =>
          rw [hw hwt p] at hfp
          cases hfp
        | true =>
          obtain ⟨e, -, -, -, hu⟩ := h4 hwt
          exact hne ((hu p hp hfp).trans (hu q hq hfq).symm)

end Verif.ParInlet
