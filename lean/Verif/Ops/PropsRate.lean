import Verif.Ops.Spec

/-! # C28: the rate operator -/

namespace Verif.Ops

set_option linter.unusedSectionVars false

variable {K : Type*} [Field K] [LinearOrder K] [IsStrictOrderedRing K] {n : ℕ}

/-! ## Writing arrays -/

theorem put_notMem (idx : List (Fin n)) (vs : List K) (a : Fin n → K) (i : Fin n) (h : i ∉ idx) : put a idx vs i = a i := by
  induction idx generalizing a vs with
  | nil => cases vs <;> rfl
  | cons j is ih =>
    cases vs with
    | nil => rfl
    | cons v vs =>
      rw [List.mem_cons, not_or] at h
      simp only [put]
      rw [ih vs _ h.2, Function.update_of_ne h.1]

theorem put_map (idx : List (Fin n)) (g : Fin n → K) (a : Fin n → K) (i : Fin n) :
    put a idx (idx.map g) i = if i ∈ idx then g i else a i := by
  induction idx generalizing a with
  | nil => rfl
  | cons j is ih =>
    simp only [List.map_cons, put]
    rw [ih]
    by_cases hi : i ∈ is
    · rw [if_pos hi, if_pos (by simp [hi])]
    · rw [if_neg hi]
      by_cases hj : i = j
      · subst hj
        rw [Function.update_self, if_pos (by simp)]
      · rw [Function.update_of_ne hj, if_neg (by simp [hi, hj])]

theorem zipWith_map {α β : Type*} (f : K → K → β) (idx : List α) (g h : α → K) :
    List.zipWith f (idx.map g) (idx.map h) = idx.map fun i => f (g i) (h i) := by
  induction idx with
  | nil => rfl
  | cons j is ih => simp [ih]

theorem zip_map {α : Type*} (idx : List α) (g : α → K) : idx.zip (idx.map g) = idx.map fun i => (i, g i) := by
  induction idx with
  | nil => rfl
  | cons j is ih => simp [ih]

theorem influx_map (d : Dom K n) (idx : List (Fin n)) (g : Fin n → K) :
    influx d idx (idx.map g) = (idx.map fun i => if d.full i then g i * d.area i else 0).sum := by
  unfold influx
  rw [zip_map]
  induction idx with
  | nil => rfl
  | cons j is ih =>
    simp only [List.map_cons, List.sum_cons]
    rw [← ih]
    by_cases h : d.full j = true
    · rw [List.filter_cons_of_pos (by simpa using h), if_pos h]
      simp
    · rw [List.filter_cons_of_neg (by simpa using h), if_neg h, zero_add]

theorem sum_list (idx : List (Fin n)) (hnd : idx.Nodup) (g : Fin n → K) : (idx.map g).sum = ∑ i, if i ∈ idx then g i else 0 := by
  have h1 : ∑ i, (if i ∈ idx then g i else 0) = ∑ i ∈ idx.toFinset, g i := by
    rw [← Finset.sum_filter]
    congr 1
    ext i
    simp
  rw [h1, List.sum_toFinset g hnd]

/-! ## One call -/

/-- The rate of a call is the rate asked for, cell by cell. -/
theorem rateAt_spec (d : Dom K n) (op : RateOp K n) (t : K) (r : RateVal K) (h : op.rateAt d t = .ok r) :
    ∃ g : Fin n → K, (∀ i, rateOf d op t i = some (g i)) ∧ r.over op.cells = op.cells.map g ∧
      (r.allNonneg = true → ∀ i ∈ op.cells, 0 ≤ g i) := by
  unfold RateOp.rateAt at h
  unfold rateOf
  have many : ∀ g : Fin n → K, RateVal.allNonneg (.many (op.cells.map g)) = true → ∀ i ∈ op.cells, 0 ≤ g i := by
    intro g hg i hi
    simp only [RateVal.allNonneg, List.all_map, List.all_eq_true, Function.comp, decide_eq_true_eq] at hg
    exact hg i hi
  cases hr : op.rate with
  | scalar v =>
    rw [hr] at h
    simp only [Except.ok.injEq] at h
    subst h
    exact ⟨fun _ => v, fun _ => rfl, rfl, fun h _ _ => by simpa [RateVal.allNonneg] using h⟩
  | temporal f =>
    rw [hr] at h
    simp only [evalTemporal] at h ⊢
    cases hf : f t with
    | val v =>
      rw [hf] at h
      simp only [Except.map, Except.ok.injEq] at h
      subst h
      exact ⟨fun _ => v, fun _ => rfl, rfl, fun h _ _ => by simpa [RateVal.allNonneg] using h⟩
    | early =>
      rw [hf] at h
      cases hd : op.default with
      | none => rw [hd] at h; simp [Except.map] at h
      | some g =>
        rw [hd] at h
        simp only [Except.map, Except.ok.injEq] at h
        subst h
        exact ⟨fun _ => g t, fun _ => rfl, rfl, fun h _ _ => by simpa [RateVal.allNonneg] using h⟩
    | late =>
      rw [hf] at h
      cases hd : op.default with
      | none => rw [hd] at h; simp [Except.map] at h
      | some g =>
        rw [hd] at h
        simp only [Except.map, Except.ok.injEq] at h
        subst h
        exact ⟨fun _ => g t, fun _ => rfl, rfl, fun h _ _ => by simpa [RateVal.allNonneg] using h⟩
  | xy f =>
    rw [hr] at h
    simp only [Except.ok.injEq] at h
    subst h
    exact ⟨fun i => f (d.cx i) (d.cy i), fun _ => rfl, rfl, many _⟩
  | xyt f =>
    rw [hr] at h
    simp only [Except.ok.injEq] at h
    subst h
    exact ⟨fun i => f (d.cx i) (d.cy i) t, fun _ => rfl, rfl, many _⟩
  | field f =>
    rw [hr] at h
    simp only [Except.ok.injEq] at h
    subst h
    exact ⟨f, fun _ => rfl, rfl, many _⟩

/-- Effect of a call in one formula: `l i` is the depth added in triangle `i`, `c i` the factor of its momentum. -/
theorem call_spec (d : Dom K n) (op op' : RateOp K n) (s s' : State K n) (t dt : K) (h : op.call d s t dt = .ok (op', s')) :
    ∃ g l c : Fin n → K, (∀ i, rateOf d op t i = some (g i)) ∧
      ((∀ i ∈ op.cells, 0 ≤ g i ∧ l i = op.factor t * dt * g i ∧ c i = 1) ∨
       (∀ i ∈ op.cells, l i = max (op.factor t * dt * g i) (-s.depth i) ∧
          c i = if l i < 0 then (l i + s.depth i) / (s.depth i + 1 / 10 ^ 10) else 1)) ∧
      (∀ i, s'.stage i = if i ∈ op.cells then s.stage i + l i else s.stage i) ∧
      (∀ i, s'.xmom i = if i ∈ op.cells then s.xmom i * c i else s.xmom i) ∧
      (∀ i, s'.ymom i = if i ∈ op.cells then s.ymom i * c i else s.ymom i) ∧
      s'.elev = s.elev ∧
      op'.localInflux = (op.cells.map fun i => if d.full i then l i * d.area i else 0).sum ∧
      s'.booked = s.booked + op'.localInflux ∧ op'.cumulative = op.cumulative + op'.localInflux ∧
      op'.rate = op.rate ∧ op'.indices = op.indices := by
  unfold RateOp.call at h
  cases hr : op.rateAt d t with
  | error e => rw [hr] at h; cases h
  | ok r =>
    obtain ⟨g, hg, hover, hnn⟩ := rateAt_spec d op t r hr
    rw [hr] at h
    simp only [hover] at h
    by_cases ha : r.allNonneg = true
    · rw [if_pos ha] at h
      simp only [Except.ok.injEq, Prod.mk.injEq] at h
      obtain ⟨h1, h2⟩ := h
      have hm : (op.cells.map g).map (fun r => op.factor t * dt * r) = op.cells.map fun i => op.factor t * dt * g i := by
        rw [List.map_map]; rfl
      refine ⟨g, fun i => op.factor t * dt * g i, fun _ => 1, hg, Or.inl fun i hi => ⟨hnn ha i hi, rfl, rfl⟩, ?_, ?_, ?_, ?_, ?_, ?_, ?_, ?_, ?_⟩
      · intro i
        rw [← h2]
        simp only [hm, take, zipWith_map, put_map]
      · intro i; rw [← h2]; simp
      · intro i; rw [← h2]; simp
      · rw [← h2]
      · rw [← h1]
        simp only [hm, influx_map]
      · rw [← h2, ← h1]
      · rw [← h1]
      · rw [← h1]
      · rw [← h1]
    · rw [if_neg ha] at h
      simp only [Except.ok.injEq, Prod.mk.injEq] at h
      obtain ⟨h1, h2⟩ := h
      refine ⟨g, fun i => max (op.factor t * dt * g i) (-s.depth i),
        fun i => if max (op.factor t * dt * g i) (-s.depth i) < 0 then
          (max (op.factor t * dt * g i) (-s.depth i) + s.depth i) / (s.depth i + 1 / 10 ^ 10) else 1,
        hg, Or.inr fun i _ => ⟨rfl, rfl⟩, ?_, ?_, ?_, ?_, ?_, ?_, ?_, ?_, ?_⟩
      · intro i
        rw [← h2]
        simp only [take, zipWith_map, put_map, State.depth]
      · intro i
        rw [← h2]
        simp only [take, zipWith_map, put_map, State.depth]
        congr
      · intro i
        rw [← h2]
        simp only [take, zipWith_map, put_map, State.depth]
        congr
      · rw [← h2]
      · rw [← h1]
        simp only [zipWith_map, influx_map, State.depth]
      · rw [← h2, ← h1]
      · rw [← h1]
      · rw [← h1]
      · rw [← h1]

/-- **C28.** Triangles outside the region are untouched, and the bed is untouched everywhere. -/
theorem C28_outside (d : Dom K n) (op op' : RateOp K n) (s s' : State K n) (t dt : K) (h : op.call d s t dt = .ok (op', s')) :
    s'.elev = s.elev ∧ ∀ i, i ∉ op.cells → SameAt s s' i := by
  obtain ⟨g, l, c, -, -, h1, h2, h3, h4, -⟩ := call_spec d op op' s s' t dt h
  refine ⟨h4, fun i hi => ⟨?_, by rw [h4], ?_, ?_⟩⟩
  · rw [h1, if_neg hi]
  · rw [h2, if_neg hi]
  · rw [h3, if_neg hi]

/-- **C28.** The depth in every triangle of the region changes by rate times factor times timestep, except that it stops at zero;
in particular depths stay non-negative. -/
theorem C28_applied (d : Dom K n) (op op' : RateOp K n) (s s' : State K n) (t dt : K) (h : op.call d s t dt = .ok (op', s'))
    (hf : 0 ≤ op.factor t * dt) (i : Fin n) (hi : i ∈ op.cells) (hd : 0 ≤ s.depth i) (r : K) (hr : rateOf d op t i = some r) :
    s'.depth i = max 0 (s.depth i + op.factor t * dt * r) := by
  obtain ⟨g, l, c, hg, hl, h1, -, -, h4, -⟩ := call_spec d op op' s s' t dt h
  have hgr : g i = r := by
    have := (hg i).symm.trans hr
    exact Option.some.inj this
  have e : s'.depth i = s.depth i + l i := by
    unfold State.depth
    rw [h1, if_pos hi, h4]
    ring
  rw [e]
  rcases hl with hl | hl
  · obtain ⟨k1, k2, -⟩ := hl i hi
    rw [k2, hgr, max_eq_right]
    exact add_nonneg hd (mul_nonneg hf (hgr ▸ k1))
  · rw [(hl i hi).1, hgr, max_comm, ← max_add_add_left]
    rw [add_neg_cancel]

/-- **C28.** What is booked, both in the operator and in the domain, is the water added to the triangles that are not ghosts. -/
theorem C28_books (d : Dom K n) (op op' : RateOp K n) (s s' : State K n) (t dt : K) (h : op.call d s t dt = .ok (op', s'))
    (hnd : op.cells.Nodup) :
    s'.booked - s.booked = water d s' - water d s ∧ op'.localInflux = water d s' - water d s ∧
      op'.cumulative - op.cumulative = water d s' - water d s := by
  obtain ⟨g, l, c, -, -, h1, -, -, h4, h5, h6, h7, -⟩ := call_spec d op op' s s' t dt h
  have e : op'.localInflux = water d s' - water d s := by
    rw [h5, sum_list _ hnd]
    unfold water
    rw [← Finset.sum_sub_distrib]
    refine Finset.sum_congr rfl fun i _ => ?_
    unfold State.depth
    rw [h1, h4]
    split_ifs <;> ring
  exact ⟨by rw [h6, e]; ring, e, by rw [h7, e]; ring⟩

/-- **C28.** Where water is removed the momentum is reduced along with it: it keeps its direction, the speed does not grow, and no
momentum is left in a triangle that was emptied. -/
theorem C28_momentum (d : Dom K n) (op op' : RateOp K n) (s s' : State K n) (t dt : K) (h : op.call d s t dt = .ok (op', s'))
    (hf : 0 ≤ op.factor t * dt) (i : Fin n) :
    ∃ c, 0 ≤ c ∧ c ≤ 1 ∧ s'.xmom i = c * s.xmom i ∧ s'.ymom i = c * s.ymom i ∧ c * s.depth i ≤ s'.depth i ∧
      (s'.depth i = 0 → 0 < s.depth i → c = 0) := by
  obtain ⟨g, l, c, hg, hl, h1, h2, h3, h4, -⟩ := call_spec d op op' s s' t dt h
  by_cases hi : i ∈ op.cells
  · have e : s'.depth i = s.depth i + l i := by
      unfold State.depth
      rw [h1, if_pos hi, h4]
      ring
    refine ⟨c i, ?_⟩
    rw [h2, h3, if_pos hi, if_pos hi, e]
    rcases hl with hl | hl
    · obtain ⟨k1, k2, k3⟩ := hl i hi
      have : 0 ≤ l i := by rw [k2]; exact mul_nonneg hf k1
      rw [k3]
      exact ⟨zero_le_one, le_refl _, by ring, by ring, by linarith, fun h0 h1 => by linarith⟩
    · obtain ⟨k1, k2⟩ := hl i hi
      have hge : -s.depth i ≤ l i := by rw [k1]; exact le_max_right _ _
      by_cases hn : l i < 0
      · rw [if_pos hn] at k2
        have hd0 : 0 < s.depth i := by linarith
        have hden : (0 : K) < s.depth i + 1 / 10 ^ 10 := by positivity
        have hsmall : s.depth i ≤ s.depth i + 1 / 10 ^ 10 := by
          have : (0 : K) < 1 / 10 ^ 10 := by positivity
          linarith
        rw [k2]
        refine ⟨div_nonneg (by linarith) hden.le, (div_le_one hden).2 (by linarith), by ring, by ring, ?_, ?_⟩
        · rw [div_mul_eq_mul_div, div_le_iff₀ hden, add_comm (s.depth i) (l i)]
          exact mul_le_mul_of_nonneg_left hsmall (by linarith)
        · intro h0 _
          rw [add_comm (l i), h0, zero_div]
      · rw [if_neg hn] at k2
        rw [k2]
        exact ⟨zero_le_one, le_refl _, by ring, by ring, by linarith, fun h0 h1 => by linarith⟩
  · obtain ⟨-, hs⟩ := C28_outside d op op' s s' t dt h
    obtain ⟨k1, k2, k3, k4⟩ := hs i hi
    refine ⟨1, zero_le_one, le_refl _, by rw [k3, one_mul], by rw [k4, one_mul], ?_, ?_⟩
    · unfold State.depth
      rw [k1, k2, one_mul]
    · intro h0 h1
      unfold State.depth at h0 h1
      rw [k1, k2] at h0
      linarith

/-- **C28.** A call fails exactly when the rate is a function of time whose data do not cover the current time and no default was
given. -/
theorem C28_fails (d : Dom K n) (op : RateOp K n) (s : State K n) (t dt : K) :
    (∃ e, op.call d s t dt = .error e) ↔ ∃ f, op.rate = .temporal f ∧ op.default = none ∧ ∀ v, f t ≠ .val v := by
  have key : (∃ e, op.call d s t dt = .error e) ↔ ∃ e, op.rateAt d t = .error e := by
    unfold RateOp.call
    cases hr : op.rateAt d t with
    | error e => simp
    | ok r =>
      simp only
      split_ifs <;> simp
  rw [key]
  unfold RateOp.rateAt
  cases hr : op.rate with
  | temporal f =>
    simp only [evalTemporal]
    cases hf : f t <;> cases hd : op.default <;> simp [Except.map, hf]
  | scalar v => simp
  | xy f => simp
  | xyt f => simp
  | field f => simp

/-- Area-weighted sums over positions are sums over the cells. -/
theorem positions_sum (d : Dom K n) (cells : List (Fin n)) (g : Fin n → K) :
    ((((List.range cells.length).filter fun j => (cells[j]?.map d.full).getD false).map fun j =>
      (cells.map d.area).getD j 0 * (cells.map g).getD j 0).sum) =
      (cells.map fun i => if d.full i then d.area i * g i else 0).sum := by
  induction cells with
  | nil => rfl
  | cons c cs ih =>
    have head : ((c :: cs).map fun i => if d.full i then d.area i * g i else 0).sum =
        (if d.full c then d.area c * g c else 0) + (cs.map fun i => if d.full i then d.area i * g i else 0).sum := by
      rw [List.map_cons, List.sum_cons]
    rw [List.length_cons, List.range_succ_eq_map, head, ← ih]
    have tail : (((List.map Nat.succ (List.range cs.length)).filter fun j => ((c :: cs)[j]?.map d.full).getD false).map fun j =>
        ((c :: cs).map d.area).getD j 0 * ((c :: cs).map g).getD j 0).sum =
        (((List.range cs.length).filter fun j => (cs[j]?.map d.full).getD false).map fun j =>
          (cs.map d.area).getD j 0 * (cs.map g).getD j 0).sum := by
      rw [List.filter_map, List.map_map]
      rfl
    by_cases h : d.full c = true
    · rw [List.filter_cons_of_pos (by simpa using h), if_pos h, List.map_cons, List.sum_cons, tail]
      rfl
    · rw [List.filter_cons_of_neg (by simpa using h), if_neg h, tail, zero_add]

/-- **C28.** `get_Q` is the discharge the operator applies, for rates that are not a quantity or an array and not negative. -/
theorem C28_getQ (d : Dom K n) (op op' : RateOp K n) (s s' : State K n) (t dt q : K) (h : op.call d s t dt = .ok (op', s'))
    (hnd : op.cells.Nodup) (hfield : ∀ f, op.rate ≠ .field f) (hnn : ∀ i ∈ op.cells, ∀ r, rateOf d op t i = some r → 0 ≤ r)
    (hq : op.getQ d t = .ok q) (hf : 0 ≤ op.factor t * dt) (hdep : ∀ i, 0 ≤ s.depth i) :
    water d s' - water d s = q * dt := by
  have e1 := (C28_books d op op' s s' t dt h hnd).2.1
  obtain ⟨g, l, c, hg, hl, -, -, -, -, h5, -⟩ := call_spec d op op' s s' t dt h
  have hl' : ∀ i ∈ op.cells, l i = op.factor t * dt * g i := by
    intro i hi
    rcases hl with hl | hl
    · exact (hl i hi).2.1
    · rw [(hl i hi).1, max_eq_left]
      have := mul_nonneg hf (hnn i hi (g i) (hg i))
      linarith [hdep i]
  rw [← e1, h5]
  have hq' : q = (op.cells.map fun i => if d.full i then d.area i * g i else 0).sum * op.factor t := by
    unfold RateOp.getQ at hq
    simp only at hq
    cases hr : op.rateAt d t with
    | error e =>
      rw [hr] at hq
      cases hrate : op.rate with
      | field f => exact absurd hrate (hfield f)
      | scalar v => simp only at hq; cases hq
      | temporal v => simp only at hq; cases hq
      | xy v => simp only at hq; cases hq
      | xyt v => simp only at hq; cases hq
    | ok r =>
      obtain ⟨g', hg', hover, -⟩ := rateAt_spec d op t r hr
      have : g' = g := by
        funext i
        exact Option.some.inj ((hg' i).symm.trans (hg i))
      subst this
      rw [hr] at hq
      rw [← positions_sum, ← hover]
      cases hrate : op.rate with
      | field f => exact absurd hrate (hfield f)
      | scalar v => simp only at hq; exact (Except.ok.inj hq).symm
      | temporal v => simp only at hq; exact (Except.ok.inj hq).symm
      | xy v => simp only at hq; exact (Except.ok.inj hq).symm
      | xyt v => simp only at hq; exact (Except.ok.inj hq).symm
  have hsum : ∀ cs : List (Fin n), (∀ i ∈ cs, l i = op.factor t * dt * g i) →
      (cs.map fun i => if d.full i then l i * d.area i else 0).sum =
        (cs.map fun i => if d.full i then d.area i * g i else 0).sum * op.factor t * dt := by
    intro cs hcs
    induction cs with
    | nil => simp
    | cons c cs ih =>
      simp only [List.map_cons, List.sum_cons]
      rw [ih fun i hi => hcs i (by simp [hi]), hcs c (by simp)]
      split_ifs <;> ring
  rw [hq', hsum _ hl']

/-! ## Where the claims stop -/

/-- Three triangles of area 1, 2 and 3, none of them a ghost. -/
def dom3 : Dom ℚ 3 := ⟨![1, 2, 3], fun _ => true, ![0, 1, 2], ![0, 0, 0]⟩

/-- One metre of water everywhere. -/
def still3 : State ℚ 3 := ⟨fun _ => 1, fun _ => 0, fun _ => 1, ![1, 2, 3], fun _ => 0, 0, 0⟩

/-- Rates of both signs on two of the triangles. -/
def mixedOp : RateOp ℚ 3 := ⟨.field ![-2, 5, 1], fun _ => 1, none, some [0, 2], 0, 0⟩

/-- The mixed case at work: triangle 0 is emptied and loses its momentum, triangle 2 gains. -/
example : (match mixedOp.call dom3 still3 0 1 with
    | .ok (op, s) => ((List.finRange 3).map s.stage, (List.finRange 3).map s.xmom, op.localInflux, s.booked)
    | .error _ => ([], [], 0, 0)) = ([0, 1, 2], [0, 2, 3], 2, 2) := by decide +kernel

example : mixedOp.cells.Nodup ∧ 0 ≤ mixedOp.factor 0 * 1 ∧ ∀ i, 0 ≤ still3.depth i := by
  unfold State.depth
  decide +kernel

/-- **C28.** With a negative conversion factor and positive rates the depth is not protected: it becomes negative. -/
theorem C28_negative_factor : ∃ (op op' : RateOp ℚ 3) (s' : State ℚ 3), op.call dom3 still3 0 1 = .ok (op', s') ∧
    (∀ i, 0 ≤ still3.depth i) ∧ s'.depth 0 < 0 := by
  refine ⟨⟨.scalar 2, fun _ => -1, none, none, 0, 0⟩, _, _, rfl, ?_, ?_⟩
  · unfold State.depth; decide +kernel
  · unfold State.depth; decide +kernel

/-- **C28.** A triangle listed twice in `indices` receives the water once but is booked twice. -/
theorem C28_repeated_index : ∃ (op op' : RateOp ℚ 3) (s' : State ℚ 3), op.call dom3 still3 0 1 = .ok (op', s') ∧
    water dom3 s' - water dom3 still3 = 1 ∧ s'.booked - still3.booked = 2 := by
  refine ⟨⟨.scalar 1, fun _ => 1, none, some [0, 0], 0, 0⟩, _, _, rfl, ?_, ?_⟩
  · unfold water State.depth; decide +kernel
  · decide +kernel

/-- **C28.** For a rate given as quantity or array on part of the mesh `get_Q` reads the rates of other triangles. -/
theorem C28_getQ_wrong : ∃ (op op' : RateOp ℚ 3) (s' : State ℚ 3) (q : ℚ), op.call dom3 still3 0 1 = .ok (op', s') ∧
    op.getQ dom3 0 = .ok q ∧ water dom3 s' - water dom3 still3 = 3 ∧ q = 30 := by
  refine ⟨⟨.field ![10, 0, 1], fun _ => 1, none, some [2], 0, 0⟩, _, _, _, rfl, rfl, ?_, ?_⟩
  · unfold water State.depth; decide +kernel
  · decide +kernel

end Verif.Ops
