import Verif.SetQ.Model
import Mathlib.Order.Bounds.Basic
import Mathlib.Data.List.Induction
import Mathlib.Tactic.Linarith

/-!
# C35: collected maxima; C36: wet elements and maximum inundation
-/

set_option linter.unusedSectionVars false

namespace Verif.SetQ

variable {K : Type*} [Field K] [LinearOrder K] [IsStrictOrderedRing K]

/-! ### Collected maxima -/

/-- The calls after the start time. -/
def eligible (start : K) (calls : List (K × List (Cell K))) : List (K × List (Cell K)) := calls.filter fun c => decide (start < c.1)

/-- Triangle `j` was in state `c` at a sampled call: one of every `f`-th eligible calls. -/
def Sampled (start : K) (f : ℕ) (calls : List (K × List (Cell K))) (j : ℕ) (c : Cell K) : Prop :=
  ∃ i call, (eligible start calls)[i]? = some call ∧ (i + 1) % f = 0 ∧ call.2[j]? = some c

theorem eligible_snoc (start : K) (calls : List (K × List (Cell K))) (c : K × List (Cell K)) :
    eligible start (calls ++ [c]) = if start < c.1 then eligible start calls ++ [c] else eligible start calls := by
  unfold eligible
  rw [List.filter_append]
  split_ifs with h <;> simp [h]

theorem Sampled.snoc (start : K) (f : ℕ) (calls : List (K × List (Cell K))) (c : K × List (Cell K)) (j : ℕ) (x : Cell K) :
    Sampled start f (calls ++ [c]) j x ↔ Sampled start f calls j x ∨
      (start < c.1 ∧ ((eligible start calls).length + 1) % f = 0 ∧ c.2[j]? = some x) := by
  unfold Sampled
  rw [eligible_snoc]
  by_cases h : start < c.1
  · simp only [h, if_true, true_and]
    constructor
    · rintro ⟨i, call, hi, hf, hx⟩
      rcases lt_trichotomy i (eligible start calls).length with hl | hl | hl
      · rw [List.getElem?_append_left hl] at hi
        exact Or.inl ⟨i, call, hi, hf, hx⟩
      · subst hl
        rw [List.getElem?_append_right le_rfl] at hi
        simp only [Nat.sub_self, List.getElem?_cons_zero, Option.some.injEq] at hi
        subst hi
        exact Or.inr ⟨hf, hx⟩
      · rw [List.getElem?_append_right hl.le] at hi
        have : i - (eligible start calls).length = (i - (eligible start calls).length - 1) + 1 := by omega
        rw [this] at hi
        simp at hi
    · rintro (⟨i, call, hi, hf, hx⟩ | ⟨hf, hx⟩)
      · refine ⟨i, call, ?_, hf, hx⟩
        rw [List.getElem?_append_left (List.getElem?_eq_some_iff.1 hi).1]
        exact hi
      · refine ⟨_, c, ?_, hf, hx⟩
        rw [List.getElem?_append_right le_rfl]
        simp
  · simp only [h, if_false, false_and, or_false]

/-- What a sampled state contributes. -/
def speedOf (sq : K → K) (minHeight zeroHeight : K) (c : Cell K) : K :=
  if zeroHeight < max (c.stage - c.elev) minHeight then sq (c.xmom ^ 2 + c.ymom ^ 2) / max (c.stage - c.elev) minHeight else 0

theorem greatest_insert {S T : Set K} {m x : K} (h : IsGreatest S m) (hT : ∀ y, y ∈ T ↔ y ∈ S ∨ y = x) : IsGreatest T (max m x) := by
  refine ⟨?_, ?_⟩
  · rw [hT]
    rcases le_total m x with h1 | h1
    · right; exact max_eq_right h1
    · left; rw [max_eq_left h1]; exact h.1
  · intro y hy
    rcases (hT y).1 hy with hy | rfl
    · exact (h.2 hy).trans (le_max_left _ _)
    · exact le_max_right _ _

/-- C35: whatever the history of calls, the stored values of a triangle are the greatest over exactly the sampled calls (every `frequency`-th of those
after the start time), and the initial values. -/
theorem C35_maxima (sq : K → K) (maxFloat minHeight : K) (n f : ℕ) (start : K) (zeroHeight : Option K) (o : Collect K)
    (ho : Collect.make maxFloat minHeight n f start zeroHeight = some o) (calls : List (K × List (Cell K)))
    (hlen : ∀ c ∈ calls, c.2.length = n) :
    (o.run sq minHeight calls).maxima.length = n ∧
    ∀ j m, (o.run sq minHeight calls).maxima[j]? = some m →
      IsGreatest {x | x = -maxFloat ∨ ∃ c, Sampled start f calls j c ∧ x = c.stage} m.stage ∧
      IsGreatest {x | x = 0 ∨ ∃ c, Sampled start f calls j c ∧ x = max (c.stage - c.elev) minHeight} m.depth ∧
      IsGreatest {x | x = 0 ∨ ∃ c, Sampled start f calls j c ∧ x = speedOf sq minHeight (zeroHeight.getD minHeight) c} m.speed ∧
      IsGreatest {x | x = 0 ∨ ∃ c, Sampled start f calls j c ∧ x = sq (c.xmom ^ 2 + c.ymom ^ 2)} m.speedDepth := by
  unfold Collect.make at ho
  split_ifs at ho with hf
  cases ho
  generalize ho : (⟨List.replicate n ⟨0 - maxFloat, 0, 0, 0⟩, 0, f, start, zeroHeight.getD minHeight⟩ : Collect K) = o
  suffices H : ((o.run sq minHeight calls).counter = (eligible start calls).length % f ∧ (o.run sq minHeight calls).frequency = f ∧
      (o.run sq minHeight calls).start = start ∧ (o.run sq minHeight calls).zeroHeight = zeroHeight.getD minHeight) ∧
      ((o.run sq minHeight calls).maxima.length = n ∧
    ∀ j m, (o.run sq minHeight calls).maxima[j]? = some m →
      IsGreatest {x | x = -maxFloat ∨ ∃ c, Sampled start f calls j c ∧ x = c.stage} m.stage ∧
      IsGreatest {x | x = 0 ∨ ∃ c, Sampled start f calls j c ∧ x = max (c.stage - c.elev) minHeight} m.depth ∧
      IsGreatest {x | x = 0 ∨ ∃ c, Sampled start f calls j c ∧ x = speedOf sq minHeight (zeroHeight.getD minHeight) c} m.speed ∧
      IsGreatest {x | x = 0 ∨ ∃ c, Sampled start f calls j c ∧ x = sq (c.xmom ^ 2 + c.ymom ^ 2)} m.speedDepth) from H.2
  induction calls using List.reverseRecOn with
  | nil =>
    subst ho
    refine ⟨⟨by simp [Collect.run, eligible], rfl, rfl, rfl⟩, by simp [Collect.run], ?_⟩
    intro j m hm
    have hm' : m = ⟨0 - maxFloat, 0, 0, 0⟩ := by
      simp only [Collect.run, List.foldl_nil] at hm
      exact (List.mem_replicate.1 (List.mem_of_getElem? hm)).2
    subst hm'
    have hno : ∀ c, ¬ Sampled start f ([] : List (K × List (Cell K))) j c := by
      rintro c ⟨i, call, h, -⟩
      simp [eligible] at h
    simp only [hno, false_and, exists_false, or_false]
    refine ⟨⟨by simp, ?_⟩, ⟨rfl, ?_⟩, ⟨rfl, ?_⟩, rfl, ?_⟩ <;> · rintro x rfl; simp
  | append_singleton calls c ih =>
    obtain ⟨⟨i1, i2, i3, i4⟩, i5, i6⟩ := ih fun c hc => hlen c (List.mem_append_left _ hc)
    have hcl := hlen c (by simp)
    have hrun : o.run sq minHeight (calls ++ [c]) = (o.run sq minHeight calls).call sq minHeight c.1 c.2 := by
      unfold Collect.run
      rw [List.foldl_append]
      rfl
    rw [hrun]
    generalize o.run sq minHeight calls = p at i1 i2 i3 i4 i5 i6
    unfold Collect.call
    rw [i2, i3, i4, i1]
    by_cases h : start < c.1
    · rw [if_pos h, eligible_snoc, if_pos h]
      have hmod : (eligible start calls).length % f + 1 = f ↔ ((eligible start calls).length + 1) % f = 0 := by
        have := Nat.mod_lt (eligible start calls).length hf
        constructor
        · intro h
          rw [Nat.add_mod]
          rcases Nat.lt_or_ge 1 f with h1 | h1
          · rw [Nat.mod_eq_of_lt h1, h, Nat.mod_self]
          · have : f = 1 := by omega
            subst this; omega
        · intro h0
          by_contra hne
          rcases Nat.lt_or_ge 1 f with h1 | h1
          · rw [Nat.add_mod, Nat.mod_eq_of_lt h1, Nat.mod_eq_of_lt (by omega)] at h0
            omega
          · have : f = 1 := by omega
            subst this; omega
      by_cases hs : (eligible start calls).length % f + 1 = f
      · rw [if_pos hs]
        have hs' := hmod.1 hs
        refine ⟨⟨by simp only [List.length_append, List.length_singleton]; exact hs'.symm, rfl, rfl, rfl⟩, ?_, ?_⟩
        · simp only [List.length_zipWith, i5, hcl, min_self]
        · intro j m hm
          simp only [List.getElem?_zipWith] at hm
          cases hj : p.maxima[j]? with
          | none => rw [hj] at hm; simp at hm
          | some m0 =>
            cases hx : c.2[j]? with
            | none => rw [hj, hx] at hm; simp at hm
            | some x =>
              rw [hj, hx] at hm
              simp only [Option.some.injEq] at hm
              subst hm
              obtain ⟨g1, g2, g3, g4⟩ := i6 j m0 hj
              have hS : ∀ y, Sampled start f (calls ++ [c]) j y ↔ Sampled start f calls j y ∨ y = x := by
                intro y
                rw [Sampled.snoc, hx]
                simp only [h, hs', true_and, Option.some.injEq, eq_comm]
              simp only [hS]
              refine ⟨greatest_insert g1 fun y => ?_, greatest_insert g2 fun y => ?_, ?_, greatest_insert g4 fun y => ?_⟩
              · simp only [Set.mem_ofPred_eq, or_and_right, exists_or, exists_eq_left, or_assoc]
              · simp only [Set.mem_ofPred_eq, or_and_right, exists_or, exists_eq_left, or_assoc]
              · have : (Maxima.update sq minHeight (zeroHeight.getD minHeight) m0 x).speed =
                    max m0.speed (speedOf sq minHeight (zeroHeight.getD minHeight) x) := by
                  simp only [Maxima.update, speedOf, mul_ite, mul_one, mul_zero, gt_iff_lt]
                rw [this]
                apply greatest_insert g3 fun y => ?_
                simp only [Set.mem_ofPred_eq, or_and_right, exists_or, exists_eq_left, or_assoc]
              · simp only [Set.mem_ofPred_eq, or_and_right, exists_or, exists_eq_left, or_assoc]
      · rw [if_neg hs]
        have hs' : ¬ ((eligible start calls).length + 1) % f = 0 := fun h => hs (hmod.2 h)
        refine ⟨⟨?_, rfl, rfl, rfl⟩, i5, ?_⟩
        · simp only [List.length_append, List.length_singleton]
          have := Nat.mod_lt (eligible start calls).length hf
          rw [Nat.add_mod, Nat.mod_eq_of_lt (show 1 < f by omega), Nat.mod_eq_of_lt (show _ % f + 1 < f by omega)]
        · simpa only [Sampled.snoc, h, hs', true_and, false_and, or_false] using i6
    · rw [if_neg h, eligible_snoc, if_neg h]
      refine ⟨⟨i1, i2, i3, i4⟩, i5, ?_⟩
      simpa only [Sampled.snoc, h, false_and, or_false] using i6

/-- C35: an update frequency of zero is rejected, every other one accepted. -/
theorem C35_frequency (maxFloat minHeight : K) (n f : ℕ) (start : K) (zeroHeight : Option K) :
    Collect.make maxFloat minHeight n f start zeroHeight = none ↔ f = 0 := by
  unfold Collect.make
  split_ifs with h
  · simp; omega
  · simp; omega

/-- C35: stored values never decrease. -/
theorem C35_monotone (sq : K → K) (minHeight : K) (o : Collect K) (t : K) (cs : List (Cell K)) (j : ℕ) (m m' : Maxima K)
    (h : o.maxima[j]? = some m) (h' : (o.call sq minHeight t cs).maxima[j]? = some m') :
    m.stage ≤ m'.stage ∧ m.depth ≤ m'.depth ∧ m.speed ≤ m'.speed ∧ m.speedDepth ≤ m'.speedDepth := by
  unfold Collect.call at h'
  split_ifs at h'
  · simp only [List.getElem?_zipWith, h] at h'
    cases hx : cs[j]? with
    | none => rw [hx] at h'; simp at h'
    | some x =>
      rw [hx] at h'
      simp only [Option.some.injEq] at h'
      subst h'
      exact ⟨le_max_left _ _, le_max_left _ _, le_max_left _ _, le_max_left _ _⟩
  · simp only at h'
    rw [h] at h'; cases h'
    exact ⟨le_rfl, le_rfl, le_rfl, le_rfl⟩
  · rw [h] at h'; cases h'
    exact ⟨le_rfl, le_rfl, le_rfl, le_rfl⟩

/-- C35, disagreement: the collected depth of a triangle that was dry at all sampled times is the minimum height, not zero. -/
theorem C35_dry_depth (sq : K → K) (maxFloat minHeight : K) (n f : ℕ) (start : K) (zeroHeight : Option K) (o : Collect K)
    (ho : Collect.make maxFloat minHeight n f start zeroHeight = some o) (calls : List (K × List (Cell K)))
    (hlen : ∀ c ∈ calls, c.2.length = n) (hmin : 0 < minHeight) (j : ℕ) (m : Maxima K)
    (hm : (o.run sq minHeight calls).maxima[j]? = some m) (hsome : ∃ c, Sampled start f calls j c)
    (hdry : ∀ c, Sampled start f calls j c → c.stage ≤ c.elev) : m.depth = minHeight := by
  obtain ⟨h1, h2⟩ := ((C35_maxima sq maxFloat minHeight n f start zeroHeight o ho calls hlen).2 j m hm).2.1
  obtain ⟨c, hc⟩ := hsome
  have hge : minHeight ≤ m.depth := (le_max_right _ _).trans (h2 (Or.inr ⟨c, hc, rfl⟩))
  rcases h1 with h | ⟨c, hc, h⟩
  · rw [h] at hge
    exact absurd hge (not_le.2 hmin)
  · rw [h]
    apply max_eq_right
    linarith [hdry c hc]

/-! ### Wet elements -/

theorem mem_compress (minHeight : K) (depth : List K) (i : ℕ) :
    i ∈ compress minHeight depth ↔ ∃ d, depth[i]? = some d ∧ minHeight < d := by
  unfold compress
  rw [List.mem_filter, List.mem_range, decide_eq_true_eq]
  constructor
  · rintro ⟨h, h'⟩
    rw [List.getElem?_eq_getElem h] at h' ⊢
    exact ⟨_, rfl, h'⟩
  · rintro ⟨d, h, h'⟩
    exact ⟨(List.getElem?_eq_some_iff.1 h).1, by rw [h]; exact h'⟩

/-- Triangle `i` is wet: deeper than the minimum height. -/
def Wet (minHeight : K) (elev stage : List K) (i : ℕ) : Prop := ∃ e s, elev[i]? = some e ∧ stage[i]? = some s ∧ minHeight < s - e

/-- C36: asked about all triangles, `get_wet_elements` lists exactly the wet ones, in increasing order. -/
theorem C36_wet (minHeight : K) (elev stage : List K) :
    ∃ w, wetElements minHeight elev stage none = some w ∧ (∀ i, i ∈ w ↔ Wet minHeight elev stage i) ∧ w.Pairwise (· < ·) := by
  refine ⟨_, rfl, fun i => ?_, ?_⟩
  · rw [mem_compress]
    simp only [List.getElem?_zipWith]
    unfold Wet
    cases he : elev[i]? with
    | none => cases stage[i]? <;> simp
    | some e =>
      cases hs : stage[i]? with
      | none => simp
      | some s => simp
  · unfold compress
    exact List.Pairwise.filter _ List.pairwise_lt_range

theorem argmaxFrom_spec (full : List K) : ∀ (xs : List K) (i : ℕ) (b : ℕ) (x : K), full.drop i = xs → full[b]? = some x → b < i →
    (∀ k y, k < i → full[k]? = some y → y ≤ x ∧ (k < b → y < x)) →
    ∃ z, full[argmaxFrom xs i (b, x)]? = some z ∧ ∀ k y, full[k]? = some y → y ≤ z ∧ (k < argmaxFrom xs i (b, x) → y < z) := by
  intro xs
  induction xs with
  | nil =>
    intro i b x hd hb hbi hall
    refine ⟨x, hb, fun k y hk => hall k y ?_ hk⟩
    have h1 := List.drop_eq_nil_iff.1 hd
    exact lt_of_lt_of_le (List.getElem?_eq_some_iff.1 hk).1 h1
  | cons a xs ih =>
    intro i b x hd hb hbi hall
    have ha : full[i]? = some a := by
      have : (full.drop i)[0]? = some a := by rw [hd]; rfl
      rwa [List.getElem?_drop, Nat.add_zero] at this
    have hd' : full.drop (i + 1) = xs := by rw [← List.drop_drop, hd]; rfl
    unfold argmaxFrom
    by_cases h : x < a
    · simp only [if_pos h]
      refine ih (i + 1) i a hd' ha (by omega) fun k y hk hy => ?_
      rcases Nat.lt_succ_iff_lt_or_eq.1 hk with hk | rfl
      · have := (hall k y hk hy).1
        exact ⟨(lt_of_le_of_lt this h).le, fun _ => lt_of_le_of_lt this h⟩
      · rw [ha] at hy; cases hy
        exact ⟨le_rfl, fun h => absurd h (lt_irrefl _)⟩
    · simp only [if_neg h]
      refine ih (i + 1) b x hd' hb (by omega) fun k y hk hy => ?_
      rcases Nat.lt_succ_iff_lt_or_eq.1 hk with hk | rfl
      · exact hall k y hk hy
      · rw [ha] at hy; cases hy
        exact ⟨not_lt.1 h, fun h => absurd h (by omega)⟩

/-- `num.argmax` is the first place of the greatest entry. -/
theorem argmax_spec (a : List K) : (argmax a = none ↔ a = []) ∧
    ∀ i, argmax a = some i → ∃ z, a[i]? = some z ∧ ∀ k y, a[k]? = some y → y ≤ z ∧ (k < i → y < z) := by
  cases a with
  | nil => simp [argmax]
  | cons x xs =>
    refine ⟨by simp [argmax], fun i hi => ?_⟩
    simp only [argmax, Option.some.injEq] at hi
    subst hi
    refine argmaxFrom_spec (x :: xs) xs 1 0 x rfl rfl (by omega) fun k y hk hy => ?_
    have : k = 0 := by omega
    subst this
    simp only [List.getElem?_cons_zero, Option.some.injEq] at hy
    subst hy
    exact ⟨le_rfl, fun h => absurd h (lt_irrefl _)⟩

theorem takeAll_spec (a : List K) : ∀ (idx : List ℕ), (∀ i ∈ idx, i < a.length) →
    ∃ v, takeAll a idx = some v ∧ ∀ p : ℕ, v[p]? = idx[p]?.bind fun i => a[i]? := by
  intro idx
  induction idx with
  | nil => intro _; exact ⟨[], rfl, fun p => by simp⟩
  | cons i is ih =>
    intro h
    obtain ⟨v, hv, hp⟩ := ih fun i hi => h i (List.mem_cons_of_mem _ hi)
    have hi := h i (by simp)
    refine ⟨a[i] :: v, ?_, ?_⟩
    · unfold takeAll at hv ⊢
      rw [List.mapM_cons, List.getElem?_eq_getElem hi, hv]
      rfl
    · intro p
      cases p with
      | zero => simp [List.getElem?_eq_getElem hi]
      | succ p => simpa using hp p

/-- C36: the highest entry among a list of positions: `get_maximum_index` returns the first listed position with the greatest value, `get_maximum_value` that
value; an empty list raises. -/
theorem C36_maximum (a : List K) (idx : List ℕ) (h : ∀ i ∈ idx, i < a.length) :
    (maximumIndex a (some idx) = none ↔ idx = []) ∧
    ∀ i, maximumIndex a (some idx) = some i → i ∈ idx ∧
      ∃ z, a[i]? = some z ∧ maximumValue a (some idx) = some z ∧ ∀ k ∈ idx, ∀ y, a[k]? = some y → y ≤ z := by
  obtain ⟨v, hv, hp⟩ := takeAll_spec a idx h
  have hval : values a (some idx) = some v := hv
  have hlen : v = [] ↔ idx = [] := by
    constructor
    · rintro rfl
      cases idx with
      | nil => rfl
      | cons i is =>
        have := hp 0
        simp [List.getElem?_eq_getElem (h i (by simp))] at this
    · rintro rfl
      cases v with
      | nil => rfl
      | cons x xs => have := hp 0; simp at this
  obtain ⟨h1, h2⟩ := argmax_spec v
  unfold maximumValue maximumIndex
  rw [hval]
  cases ha : argmax v with
  | none =>
    simp only [ha]
    exact ⟨⟨fun _ => hlen.1 (h1.1 ha), fun _ => trivial⟩, fun i hi => by simp at hi⟩
  | some p =>
    obtain ⟨z, hz, hmax⟩ := h2 p ha
    rw [hp p] at hz
    cases hip : idx[p]? with
    | none => rw [hip] at hz; simp at hz
    | some i =>
      rw [hip, Option.bind_some] at hz
      simp only [ha, hip]
      refine ⟨?_, ?_⟩
      · constructor
        · intro h; simp at h
        · rintro rfl; simp at hip
      · intro j hj
        cases hj
        refine ⟨List.mem_of_getElem? hip, z, hz, hz, fun k hk y hy => ?_⟩
        obtain ⟨q, hq⟩ := List.mem_iff_getElem?.1 hk
        exact (hmax q y (by rw [hp q, hq]; exact hy)).1

/-- C36: asked about all triangles, the maximum inundation elevation is the highest bed of any wet triangle, and the location is the centroid of a wet
triangle with that bed; both raise if no triangle is wet. -/
theorem C36_inundation_partial (minHeight : K) (elev stage : List K) :
    (∀ i, maxInundationTriangle minHeight elev stage none = some i → Wet minHeight elev stage i ∧
      ∃ z, elev[i]? = some z ∧ maxInundationElevation minHeight elev stage none = some z ∧
        ∀ k, Wet minHeight elev stage k → ∀ y, elev[k]? = some y → y ≤ z) ∧
    (maxInundationTriangle minHeight elev stage none = none ↔ ∀ k, ¬ Wet minHeight elev stage k) := by
  obtain ⟨w, hw, hwet, -⟩ := C36_wet minHeight elev stage
  have hb : ∀ i ∈ w, i < elev.length := by
    intro i hi
    obtain ⟨e, s, he, -⟩ := (hwet i).1 hi
    exact (List.getElem?_eq_some_iff.1 he).1
  obtain ⟨h1, h2⟩ := C36_maximum elev w hb
  unfold maxInundationTriangle maxInundationElevation
  rw [hw]
  refine ⟨fun i hi => ?_, ?_⟩
  · obtain ⟨hm, z, hz, hv, hmax⟩ := h2 i hi
    exact ⟨(hwet i).1 hm, z, hz, hv, fun k hk y hy => hmax k ((hwet k).2 hk) y hy⟩
  · simp only
    rw [h1]
    constructor
    · rintro rfl k hk
      have := (hwet k).2 hk
      simp at this
    · intro h
      cases w with
      | nil => rfl
      | cons i is => exact absurd ((hwet i).1 (by simp)) (h i)

/-- C36: asked about some triangles, `get_wet_elements` returns positions in the given list, not triangles. -/
theorem C36_positions (minHeight : K) (elev stage : List K) (idx : List ℕ) (he : ∀ i ∈ idx, i < elev.length)
    (hs : ∀ i ∈ idx, i < stage.length) :
    ∃ w, wetElements minHeight elev stage (some idx) = some w ∧
      ∀ p, p ∈ w ↔ ∃ i, idx[p]? = some i ∧ Wet minHeight elev stage i := by
  obtain ⟨e, h1, h1'⟩ := takeAll_spec elev idx he
  obtain ⟨s, h2, h2'⟩ := takeAll_spec stage idx hs
  refine ⟨compress minHeight (List.zipWith (· - ·) s e), by simp only [wetElements, values, h1, h2], fun p => ?_⟩
  rw [mem_compress]
  simp only [List.getElem?_zipWith, h1', h2']
  unfold Wet
  cases hp : idx[p]? with
  | none => simp
  | some i =>
    simp only [Option.bind_some, Option.some.injEq, exists_eq_left']
    cases elev[i]? with
    | none => cases stage[i]? <;> simp
    | some e => cases stage[i]? <;> simp

/-- C36, disagreement: so among triangles 1 and 2 (both wet, beds 5 and 3), the reported maximum inundation elevation is 9, the bed of the dry
triangle 0, which was not asked about. -/
theorem C36_subset_wrong :
    wetElements (1 / 100 : ℚ) [9, 5, 3] [9, 6, 6] (some [1, 2]) = some [0, 1] ∧
    maxInundationElevation (1 / 100 : ℚ) [9, 5, 3] [9, 6, 6] (some [1, 2]) = some 9 ∧
    maxInundationTriangle (1 / 100 : ℚ) [9, 5, 3] [9, 6, 6] (some [1, 2]) = some 0 ∧
    ¬ Wet (1 / 100 : ℚ) [9, 5, 3] [9, 6, 6] 0 := by
  refine ⟨by decide +kernel, by decide +kernel, by decide +kernel, ?_⟩
  rintro ⟨e, s, he, hs, h⟩
  simp at he hs
  subst he hs
  norm_num at h

/-! ### Samples -/

/-- Three triangles, the last two wet. -/
example : maxInundationElevation (1 / 100 : ℚ) [9, 5, 3] [9, 6, 6] none = some 5 ∧
    maxInundationTriangle (1 / 100 : ℚ) [9, 5, 3] [9, 6, 6] none = some 1 ∧
    maxInundationTriangle (1 / 100 : ℚ) [9, 5, 3] [9, 5, 3] none = none := by decide +kernel

/-- One triangle, frequency 2, start 0: of the calls at times 0, 1, 2, 3 only that at 2 is sampled. -/
def exCalls : List (ℚ × List (Cell ℚ)) :=
  [(0, [⟨9, 0, 0, 0⟩]), (1, [⟨8, 0, 0, 0⟩]), (2, [⟨4, 2, 3, 4⟩]), (3, [⟨7, 0, 0, 0⟩])]

/-- The square root at 25 and 0 (the only places used). -/
def exSqrt (x : ℚ) : ℚ := if x = 25 then 5 else 0

example : ((Collect.make (10 ^ 36 : ℚ) (1 / 100) 1 2 0 none).map fun o =>
    ((o.run exSqrt (1 / 100) exCalls).maxima.map fun m => (m.stage, m.depth, m.speed, m.speedDepth))) =
    some [(4, 2, 5 / 2, 5)] := by decide +kernel

example : Sampled (0 : ℚ) 2 exCalls 0 ⟨4, 2, 3, 4⟩ := ⟨1, (2, [⟨4, 2, 3, 4⟩]), by simp [eligible, exCalls], by decide, rfl⟩

end Verif.SetQ
