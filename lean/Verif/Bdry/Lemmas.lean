import Verif.Bdry.Model

/-! Helper lemmas about the boundary model. -/

set_option linter.unusedSectionVars false

namespace Verif.Bdry

section
variable {K : Type*} [Field K] [LinearOrder K] [IsStrictOrderedRing K]

theorem foldl_update_bv (q : Q) (v : ℕ → K) (ids : List ℕ) (b : Q → ℕ → K) (q' : Q) (i : ℕ) :
    ids.foldl (fun b i => Function.update b q (Function.update (b q) i (v i))) b q' i =
      if q' = q ∧ i ∈ ids then v i else b q' i := by
  induction ids generalizing b with
  | nil => simp
  | cons k ids ih =>
    rw [List.foldl_cons, ih]
    by_cases hq : q' = q
    · subst hq
      by_cases hk : i = k
      · subst hk; simp
      · simp [hk]
    · simp [hq]

theorem put_bv (d : Dom K) (q : Q) (ids : List ℕ) (v : ℕ → K) (q' : Q) (i : ℕ) :
    (d.put q ids v).bv q' i = if q' = q ∧ i ∈ ids then v i else d.bv q' i :=
  foldl_update_bv q v ids d.bv q' i

@[simp] theorem put_cells (d : Dom K) (q : Q) (ids : List ℕ) (v : ℕ → K) :
    (d.put q ids v).cells = d.cells := rfl
@[simp] theorem put_edges (d : Dom K) (q : Q) (ids : List ℕ) (v : ℕ → K) :
    (d.put q ids v).edges = d.edges := rfl
@[simp] theorem put_edge (d : Dom K) (q : Q) (ids : List ℕ) (v : ℕ → K) :
    (d.put q ids v).edge = d.edge := rfl
@[simp] theorem put_cent (d : Dom K) (q : Q) (ids : List ℕ) (v : ℕ → K) :
    (d.put q ids v).cent = d.cent := rfl
@[simp] theorem put_normal (d : Dom K) (q : Q) (ids : List ℕ) (v : ℕ → K) :
    (d.put q ids v).normal = d.normal := rfl
@[simp] theorem put_mid (d : Dom K) (q : Q) (ids : List ℕ) (v : ℕ → K) :
    (d.put q ids v).mid = d.mid := rfl
@[simp] theorem put_time (d : Dom K) (q : Q) (ids : List ℕ) (v : ℕ → K) :
    (d.put q ids v).time = d.time := rfl
@[simp] theorem put_evolved (d : Dom K) (q : Q) (ids : List ℕ) (v : ℕ → K) :
    (d.put q ids v).evolved = d.evolved := rfl
@[simp] theorem put_conserved (d : Dom K) (q : Q) (ids : List ℕ) (v : ℕ → K) :
    (d.put q ids v).conserved = d.conserved := rfl
@[simp] theorem put_centroidTransmissive (d : Dom K) (q : Q) (ids : List ℕ) (v : ℕ → K) :
    (d.put q ids v).centroidTransmissive = d.centroidTransmissive := rfl

/-- The domain with other boundary values. -/
def Dom.withBv (d : Dom K) (b : Q → ℕ → K) : Dom K := { d with bv := b }

theorem put_eq (d : Dom K) (q : Q) (ids : List ℕ) (v : ℕ → K) :
    d.put q ids v = d.withBv fun q' i => if q' = q ∧ i ∈ ids then v i else d.bv q' i := by
  unfold Dom.withBv
  have : (d.put q ids v).bv = fun q' i => if q' = q ∧ i ∈ ids then v i else d.bv q' i := by
    funext q' i; exact put_bv d q ids v q' i
  rw [← this]; rfl

@[simp] theorem withBv_withBv (d : Dom K) (b b' : Q → ℕ → K) :
    (d.withBv b).withBv b' = d.withBv b' := rfl
@[simp] theorem withBv_bv (d : Dom K) (b : Q → ℕ → K) : (d.withBv b).bv = b := rfl
@[simp] theorem withBv_self (d : Dom K) : d.withBv d.bv = d := rfl
@[simp] theorem withBv_cells (d : Dom K) (b : Q → ℕ → K) : (d.withBv b).cells = d.cells := rfl
@[simp] theorem withBv_edges (d : Dom K) (b : Q → ℕ → K) : (d.withBv b).edges = d.edges := rfl
@[simp] theorem withBv_edge (d : Dom K) (b : Q → ℕ → K) : (d.withBv b).edge = d.edge := rfl
@[simp] theorem withBv_cent (d : Dom K) (b : Q → ℕ → K) : (d.withBv b).cent = d.cent := rfl
@[simp] theorem withBv_normal (d : Dom K) (b : Q → ℕ → K) : (d.withBv b).normal = d.normal := rfl
@[simp] theorem withBv_mid (d : Dom K) (b : Q → ℕ → K) : (d.withBv b).mid = d.mid := rfl
@[simp] theorem withBv_time (d : Dom K) (b : Q → ℕ → K) : (d.withBv b).time = d.time := rfl
@[simp] theorem withBv_evolved (d : Dom K) (b : Q → ℕ → K) : (d.withBv b).evolved = d.evolved := rfl
@[simp] theorem withBv_conserved (d : Dom K) (b : Q → ℕ → K) :
    (d.withBv b).conserved = d.conserved := rfl
@[simp] theorem withBv_ct (d : Dom K) (b : Q → ℕ → K) :
    (d.withBv b).centroidTransmissive = d.centroidTransmissive := rfl

theorem evaluate_withBv (p : Par K) (d : Dom K) (b : Q → ℕ → K) (B : BC K) (v e : ℕ) :
    evaluate p (d.withBv b) B v e = evaluate p d B v e := by
  induction B with
  | timeSpaceOr f c ih => simp only [evaluate, withBv_time, withBv_mid, ih]
  | fileOr f F c ih => simp only [evaluate, withBv_time, ih]
  | field m c ih => simp only [evaluate, withBv_conserved, ih]
  | _ => rfl

/-- The value last assigned to a quantity by a list of assignments. -/
def lastVal : List (Q × K) → Q → Option K
  | [], _ => none
  | (q, x) :: l, q' => (lastVal l q').or (if q' = q then some x else none)

/-- Boundary values after writing `val` where it is defined at the listed numbers. -/
def over (val : Q → ℕ → Option K) (ids : List ℕ) (b : Q → ℕ → K) : Q → ℕ → K :=
  fun q i => if i ∈ ids then (val q i).getD (b q i) else b q i

@[simp] theorem over_none (ids : List ℕ) (b : Q → ℕ → K) :
    over (fun _ _ => none) ids b = b := by
  funext q i; simp [over]

@[simp] theorem over_nil (val : Q → ℕ → Option K) (b : Q → ℕ → K) : over val [] b = b := by
  funext q i; simp [over]

theorem foldl_put (ids : List ℕ) (l : List Q) (v : Dom K → Q → ℕ → K)
    (hv : ∀ d b, v (Dom.withBv d b) = v d) (d : Dom K) :
    l.foldl (fun d q => d.put q ids fun i => v d q i) d =
      d.withBv (over (fun q i => if q ∈ l then some (v d q i) else none) ids d.bv) := by
  induction l generalizing d with
  | nil => simp
  | cons q l ih =>
    rw [List.foldl_cons, ih, put_eq]
    simp only [withBv_withBv, withBv_bv, hv]
    congr 1
    funext q' i
    unfold over
    by_cases hi : i ∈ ids
    · by_cases hq : q' = q
      · subst hq
        by_cases hl : q' ∈ l <;> simp [hi, hl]
      · by_cases hl : q' ∈ l <;> simp [hi, hq, hl]
    · simp [hi]

theorem store_eq (d : Dom K) (i : ℕ) (x : List K) :
    d.store i x = d.withBv (over (fun q _ => lastVal (d.evolved.zip x) q) [i] d.bv) := by
  unfold Dom.store
  generalize d.evolved.zip x = l
  induction l generalizing d with
  | nil => simp [lastVal]
  | cons a l ih =>
    obtain ⟨q, y⟩ := a
    rw [List.foldl_cons, ih, put_eq]
    simp only [withBv_withBv, withBv_bv]
    congr 1
    funext q' j
    unfold over
    by_cases hj : j ∈ [i]
    · simp only [hj, if_true, lastVal, and_true]
      cases lastVal l q' with
      | some z => simp
      | none => by_cases hq : q' = q <;> simp [hq]
    · simp [hj]

theorem putVector_spec (ids : List ℕ) (l : List Q) (x : List K) (d : Dom K) :
    Dom.putVector ids l x d = if l.length ≤ x.length then
        .ok (d.withBv (over (fun q _ => lastVal (l.zip x) q) ids d.bv)) else .error .index := by
  induction l generalizing x d with
  | nil => simp [Dom.putVector, lastVal]
  | cons q l ih =>
    cases x with
    | nil => simp [Dom.putVector]
    | cons y x =>
      rw [Dom.putVector, ih, put_eq]
      simp only [List.length_cons, Nat.add_le_add_iff_right, withBv_withBv, withBv_bv,
        List.zip_cons_cons]
      by_cases h : l.length ≤ x.length
      · simp only [h, if_true]
        congr 2
        funext q' j
        unfold over
        by_cases hj : j ∈ ids
        · simp only [hj, if_true, lastVal, and_true]
          cases lastVal (l.zip x) q' with
          | some z => simp
          | none => by_cases hq : q' = q <;> simp [hq]
        · simp [hj]
      · simp [h]

theorem over_over (val val' : Q → ℕ → Option K) (ids : List ℕ) (b : Q → ℕ → K) :
    over val' ids (over val ids b) = over (fun q i => (val' q i).or (val q i)) ids b := by
  funext q i
  unfold over
  by_cases h : i ∈ ids
  · simp only [h, if_true]
    cases val' q i <;> simp
  · simp [h]

theorem over_cons (val : Q → ℕ → Option K) (i : ℕ) (ids : List ℕ) (b : Q → ℕ → K) :
    over val ids (over val [i] b) = over val (i :: ids) b := by
  funext q k
  unfold over
  by_cases h : k ∈ ids <;> by_cases h' : k = i <;> simp [h, h']
  · subst h'; simp [h]; cases val q k <;> simp
  · subst h'; simp [h]

/-- What a class writes, independently of the boundary values and of the list of edges. -/
def Local (p : Par K) (B : BC K) (d : Dom K) : Prop :=
  ∃ (val : Q → ℕ → Option K) (c : Prop) (good : ℕ → Prop), ∀ ids b,
    ((c ∧ ∀ i ∈ ids, good i) →
      evaluateSegment p B ids (d.withBv b) = .ok (d.withBv (over val ids b))) ∧
    (¬ (c ∧ ∀ i ∈ ids, good i) → ∃ e, evaluateSegment p B ids (d.withBv b) = .error e)

theorem local_generic (p : Par K) (B : BC K) (d : Dom K)
    (h : ∀ ids d, evaluateSegment p B ids d = genericSegment p B ids d) : Local p B d := by
  let step : ℕ → Except Err (List K) := fun i => do
    let q ← evaluate p d B (d.cells i) (d.edges i)
    d.complete (d.cells i) (d.edges i) q
  refine ⟨fun q i => match step i with
    | .ok x => lastVal (d.evolved.zip x) q
    | .error _ => none, True, fun i => ∃ x, step i = .ok x, fun ids b => ?_⟩
  rw [h]
  unfold genericSegment
  induction ids generalizing b with
  | nil => simp; rfl
  | cons i ids ih =>
    rw [List.foldlM_cons]
    have hstep : (do
        let q ← evaluate p (d.withBv b) B ((d.withBv b).cells i) ((d.withBv b).edges i)
        let q' ← (d.withBv b).complete ((d.withBv b).cells i) ((d.withBv b).edges i) q
        return (d.withBv b).store i q' : Except Err (Dom K)) =
        (step i).map fun x => (d.withBv b).store i x := by
      simp only [step, evaluate_withBv, withBv_cells, withBv_edges]
      cases evaluate p d B (d.cells i) (d.edges i) with
      | error e => rfl
      | ok x =>
        show (do let q' ← d.complete (d.cells i) (d.edges i) x
                 return (d.withBv b).store i q' : Except Err (Dom K)) = _
        cases hc : d.complete (d.cells i) (d.edges i) x with
        | error e => simp [Except.map, bind, Except.bind, hc]
        | ok y => simp [Except.map, bind, Except.bind, hc, pure, Except.pure]
    rw [hstep]
    cases hs : step i with
    | error e =>
      constructor
      · rintro ⟨-, hall⟩
        obtain ⟨x, hx⟩ := hall i List.mem_cons_self
        rw [hs] at hx; cases hx
      · intro _; exact ⟨e, rfl⟩
    | ok x =>
      have hb : (Except.map (fun x => (d.withBv b).store i x) (.ok x : Except Err (List K))) =
          .ok (d.withBv (over (fun q i => match step i with
            | .ok x => lastVal (d.evolved.zip x) q
            | .error _ => none) [i] b)) := by
        show Except.ok ((d.withBv b).store i x) = _
        rw [store_eq]
        simp only [withBv_withBv, withBv_bv, withBv_evolved]
        congr 2
        funext q k
        unfold over
        by_cases hk : k ∈ [i]
        · have : k = i := by simpa using hk
          subst this
          simp only [hk, if_true, hs]
        · simp only [hk, if_false]
      rw [hb]
      have ih' := ih (over (fun q i => match step i with
            | .ok x => lastVal (d.evolved.zip x) q
            | .error _ => none) [i] b)
      rw [over_cons] at ih'
      refine ⟨fun hall => ih'.1 ⟨trivial, fun k hk => hall.2 k (List.mem_cons_of_mem _ hk)⟩,
        fun hn => ih'.2 fun hall => hn ⟨trivial, ?_⟩⟩
      intro k hk
      rcases List.mem_cons.1 hk with rfl | hk
      · exact ⟨x, hs⟩
      · exact hall.2 k hk

theorem local_of_put (p : Par K) (B : BC K) (d : Dom K) (val : Q → ℕ → Option K)
    (h : ∀ ids b, evaluateSegment p B ids (d.withBv b) = .ok (d.withBv (over val ids b))) :
    Local p B d :=
  ⟨val, True, fun _ => True, fun ids b => ⟨fun _ => h ids b, fun hn => (hn ⟨trivial, by simp⟩).elim⟩⟩

theorem local_of_error (p : Par K) (B : BC K) (d : Dom K) 
    (h : ∀ ids b, ∃ e, evaluateSegment p B ids (d.withBv b) = .error e) : Local p B d :=
  ⟨fun _ _ => none, False, fun _ => True, fun ids b => ⟨fun h => h.1.elim, fun _ => h ids b⟩⟩

theorem vectorSegment_char (v : List K) (d : Dom K) :
    ∃ (val : Q → ℕ → Option K) (c : Prop), ∀ ids b,
      (c → vectorSegment v ids (d.withBv b) = .ok (d.withBv (over val ids b))) ∧
      (¬ c → ∃ e, vectorSegment v ids (d.withBv b) = .error e) := by
  by_cases hv : v.length = d.evolved.length
  · refine ⟨fun q _ => lastVal (d.evolved.zip v) q, d.evolved.length ≤ v.length, fun ids b => ?_⟩
    unfold vectorSegment
    simp only [withBv_evolved, hv, if_true, putVector_spec, le_refl, withBv_withBv, withBv_bv]
    simp
  · refine ⟨fun q i => (lastVal (d.conserved.zip v) q).or
      (if q ∈ d.evolved then some (d.edge q (d.cells i) (d.edges i)) else none),
      d.conserved.length ≤ v.length, fun ids b => ?_⟩
    unfold vectorSegment
    simp only [withBv_evolved, hv, if_false, Dom.copyEdge]
    rw [foldl_put ids d.evolved (fun d q i => d.edge q (d.cells i) (d.edges i)) (fun _ _ => rfl),
      putVector_spec]
    simp only [withBv_withBv, withBv_bv, over_over, withBv_edge, withBv_cells, withBv_edges,
      withBv_conserved]
    by_cases hc : d.conserved.length ≤ v.length <;> simp [hc]

theorem copyEdge_eq (d : Dom K) (ids : List ℕ) (q : Q) :
    d.copyEdge ids q = d.withBv (over (fun q' i => if q' = q then
      some (d.edge q (d.cells i) (d.edges i)) else none) ids d.bv) := by
  unfold Dom.copyEdge
  rw [put_eq]
  congr 1
  funext q' i
  unfold over
  by_cases hi : i ∈ ids <;> by_cases hq : q' = q <;> simp [hi, hq]

theorem put_eq' (d : Dom K) (q : Q) (ids : List ℕ) (v : ℕ → K) :
    d.put q ids v = d.withBv (over (fun q' i => if q' = q then some (v i) else none) ids d.bv) := by
  rw [put_eq]
  congr 1
  funext q' i
  unfold over
  by_cases hi : i ∈ ids <;> by_cases hq : q' = q <;> simp [hi, hq]

theorem put_congr (d : Dom K) (q : Q) (ids : List ℕ) (v w : ℕ → K) (h : ∀ i ∈ ids, v i = w i) :
    d.put q ids v = d.put q ids w := by
  rw [put_eq, put_eq]
  congr 1
  funext q' i
  by_cases hi : q' = q ∧ i ∈ ids
  · simp only [hi, and_self, if_true]; exact h i hi.2
  · simp only [hi, if_false]

theorem vec_char (f : List ℕ → Dom K → Dom K) (W : Q → Bool) (d : Dom K)
    (hgeo : ∀ ids b, f ids (d.withBv b) = d.withBv (f ids (d.withBv b)).bv)
    (hin : ∀ ids b i q, i ∈ ids → W q = true → (f ids (d.withBv b)).bv q i = (f [i] d).bv q i)
    (hout : ∀ ids b i q, (i ∉ ids ∨ W q = false) → (f ids (d.withBv b)).bv q i = b q i) :
    ∃ val : Q → ℕ → Option K, ∀ ids b, f ids (d.withBv b) = d.withBv (over val ids b) := by
  refine ⟨fun q i => if W q then some ((f [i] d).bv q i) else none, fun ids b => ?_⟩
  rw [hgeo]
  congr 1
  funext q i
  unfold over
  by_cases hi : i ∈ ids
  · by_cases hw : W q = true
    · simp [hi, hw, hin ids b i q hi hw]
    · have hw' : W q = false := by simpa using hw
      simp [hi, hw', hout ids b i q (Or.inr hw')]
  · simp [hi, hout ids b i q (Or.inl hi)]

theorem geo_put {d d1 : Dom K} (h : d1 = d.withBv d1.bv) (q : Q) (ids : List ℕ) (v : ℕ → K) :
    d1.put q ids v = d.withBv (d1.put q ids v).bv := by
  rw [put_eq, withBv_bv]
  generalize (fun q' i => if q' = q ∧ i ∈ ids then v i else d1.bv q' i) = X
  rw [h]; rfl

theorem geo_copy {d d1 : Dom K} (h : d1 = d.withBv d1.bv) (ids : List ℕ) (q : Q) :
    d1.copyEdge ids q = d.withBv (d1.copyEdge ids q).bv := geo_put h _ _ _

theorem reflective_char (d : Dom K) : ∃ val : Q → ℕ → Option K, ∀ ids b,
    reflectiveSegment ids (d.withBv b) = d.withBv (over val ids b) := by
  refine vec_char reflectiveSegment (fun _ => true) d ?_ ?_ ?_
  · intro ids b
    exact geo_put (geo_put (geo_put (geo_put (geo_copy (geo_copy (geo_copy rfl _ _) _ _) _ _) _ _ _) _ _ _) _ _ _) _ _ _
  · intro ids b i q hi _
    cases q <;> simp [reflectiveSegment, put_bv, Dom.copyEdge, hi]
  · intro ids b i q h
    have hi : i ∉ ids := by simpa using h
    cases q <;> simp [reflectiveSegment, put_bv, Dom.copyEdge, hi]

theorem nMomentum_char (x : K) (d : Dom K) : ∃ val : Q → ℕ → Option K, ∀ ids b,
    nMomentumSegment x ids (d.withBv b) = d.withBv (over val ids b) := by
  refine vec_char (nMomentumSegment x)
    (fun q => decide (q = .stage ∨ q = .xmom ∨ q = .ymom)) d ?_ ?_ ?_
  · intro ids b
    exact geo_put (geo_put (geo_put rfl _ _ _) _ _ _) _ _ _
  · intro ids b i q hi hq
    cases q <;> simp [nMomentumSegment, put_bv, hi] <;> simp_all
  · intro ids b i q h
    rcases h with hi | hq
    · cases q <;> simp [nMomentumSegment, put_bv, hi]
    · cases q <;> simp [nMomentumSegment, put_bv] <;> simp_all

theorem characteristic_char (p : Par K) (x : K) (d : Dom K) : ∃ val : Q → ℕ → Option K, ∀ ids b,
    characteristicSegment p x ids (d.withBv b) = d.withBv (over val ids b) := by
  refine vec_char (characteristicSegment p x)
    (fun q => decide (q = .stage ∨ q = .xmom ∨ q = .ymom ∨ q = .elev)) d ?_ ?_ ?_
  · intro ids b
    exact geo_put (geo_put (geo_put (geo_copy (geo_copy (geo_copy (geo_copy rfl _ _) _ _) _ _) _ _) _ _ _) _ _ _) _ _ _
  · intro ids b i q hi hq
    cases q <;> simp [characteristicSegment, put_bv, Dom.copyEdge, hi] <;> simp_all
  · intro ids b i q h
    rcases h with hi | hq
    · cases q <;> simp [characteristicSegment, put_bv, Dom.copyEdge, hi]
    · cases q <;> simp [characteristicSegment, put_bv, Dom.copyEdge] <;> simp_all

theorem flather_char (p : Par K) (x : K) (d : Dom K) : ∃ val : Q → ℕ → Option K, ∀ ids b,
    flatherSegment p x ids (d.withBv b) = d.withBv (over val ids b) := by
  refine vec_char (flatherSegment p x)
    (fun q => decide (q = .stage ∨ q = .xmom ∨ q = .ymom ∨ q = .elev)) d ?_ ?_ ?_
  · intro ids b
    exact geo_put (geo_put (geo_put (geo_copy (geo_copy (geo_copy (geo_copy rfl _ _) _ _) _ _) _ _) _ _ _) _ _ _) _ _ _
  · intro ids b i q hi hq
    cases q <;> simp [flatherSegment, put_bv, Dom.copyEdge, hi] <;> simp_all
  · intro ids b i q h
    rcases h with hi | hq
    · cases q <;> simp [flatherSegment, put_bv, Dom.copyEdge, hi]
    · cases q <;> simp [flatherSegment, put_bv, Dom.copyEdge] <;> simp_all

theorem transmissive_char (d : Dom K) : ∃ val : Q → ℕ → Option K, ∀ ids b,
    transmissiveSegment ids (d.withBv b) = d.withBv (over val ids b) := by
  by_cases hc : d.centroidTransmissive = true
  · refine ⟨fun q i => if q ∈ d.evolved then some (d.cent q (d.cells i)) else none,
      fun ids b => ?_⟩
    unfold transmissiveSegment
    simp only [withBv_ct, hc, if_true]
    rw [foldl_put ids _ (fun d q i => d.cent q (d.cells i)) (fun _ _ => rfl)]
    rfl
  · refine ⟨fun q i => if q ∈ d.evolved then some (d.edge q (d.cells i) (d.edges i)) else none,
      fun ids b => ?_⟩
    unfold transmissiveSegment
    simp only [withBv_ct, hc, Bool.false_eq_true, if_false, Dom.copyEdge]
    rw [foldl_put ids _ (fun d q i => d.edge q (d.cells i) (d.edges i)) (fun _ _ => rfl)]
    rfl

theorem local_of_char (p : Par K) (B : BC K) (d : Dom K) (f : List ℕ → Dom K → Dom K)
    (h : ∀ ids b, evaluateSegment p B ids (d.withBv b) = .ok (f ids (d.withBv b)))
    (hf : ∃ val : Q → ℕ → Option K, ∀ ids b, f ids (d.withBv b) = d.withBv (over val ids b)) :
    Local p B d := by
  obtain ⟨val, hval⟩ := hf
  exact local_of_put p B d val fun ids b => by rw [h, hval]

/-- Every class writes at each listed edge a value that depends on that edge only. -/
theorem local_all (p : Par K) (B : BC K) (d : Dom K) : Local p B d := by
  cases B with
  | reflective => exact local_of_char p _ d _ (fun _ _ => rfl) (reflective_char d)
  | transmissive => exact local_of_char p _ d _ (fun _ _ => rfl) (transmissive_char d)
  | computeFluxes => 
    exact local_of_put p _ d (fun _ _ => none) fun ids b => by rw [over_none]; rfl
  | dirichlet v =>
    obtain ⟨val, c, h⟩ := vectorSegment_char v d
    exact ⟨val, c, fun _ => True, fun ids b =>
      ⟨fun hc => (h ids b).1 hc.1, fun hn => (h ids b).2 fun hc => hn ⟨hc, by simp⟩⟩⟩
  | time f dflt =>
    cases hv : boundaryValue f dflt d.time with
    | error e => exact local_of_error p _ d fun ids b => ⟨e, by
        simp [evaluateSegment, hv, bind, Except.bind]⟩
    | ok v =>
      obtain ⟨val, c, h⟩ := vectorSegment_char v d
      refine ⟨val, c, fun _ => True, fun ids b => ?_⟩
      have : evaluateSegment p (.time f dflt) ids (d.withBv b) =
          vectorSegment v ids (d.withBv b) := by
        simp [evaluateSegment, hv, bind, Except.bind]
      rw [this]
      exact ⟨fun hc => (h ids b).1 hc.1, fun hn => (h ids b).2 fun hc => hn ⟨hc, by simp⟩⟩
  | nMomentum f dflt =>
    cases hv : boundaryValue f dflt d.time with
    | error e => exact local_of_error p _ d fun ids b => ⟨e, by
        simp [evaluateSegment, hv, bind, Except.bind]⟩
    | ok v => exact local_of_char p (.nMomentum f dflt) d (nMomentumSegment v) (fun ids b => by
        simp [evaluateSegment, hv, bind, Except.bind, pure, Except.pure]) (nMomentum_char v d)
  | timeStageZero f => exact local_of_error p _ d fun ids b => ⟨_, rfl⟩
  | characteristic f =>
    cases hv : f d.time with
    | error e => exact local_of_error p _ d fun ids b => ⟨e, by
        simp [evaluateSegment, hv, bind, Except.bind]⟩
    | ok v =>
      exact local_of_char p (.characteristic f) d (characteristicSegment p v) (fun ids b => by
        simp [evaluateSegment, hv, bind, Except.bind, pure, Except.pure])
        (characteristic_char p v d)
  | flather f =>
    cases hv : f d.time with
    | error e => exact local_of_error p _ d fun ids b => ⟨e, by
        simp [evaluateSegment, hv, bind, Except.bind]⟩
    | ok v => exact local_of_char p (.flather f) d (flatherSegment p v) (fun ids b => by
        simp [evaluateSegment, hv, bind, Except.bind, pure, Except.pure]) (flather_char p v d)
  | _ => exact local_generic p _ d fun _ _ => rfl

end

end Verif.Bdry
