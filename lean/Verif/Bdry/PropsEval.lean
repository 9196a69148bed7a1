import Verif.Bdry.Lemmas
import Verif.Bdry.Spec

/-! C55: the per-edge and the vectorised evaluation of a boundary condition agree. -/

set_option linter.unusedSectionVars false

namespace Verif.Bdry

variable {K : Type*} [Field K] [LinearOrder K] [IsStrictOrderedRing K]

/-- The three values a condition gives. -/
def tri (f0 f1 f2 : ℕ → K) : Q → ℕ → Option K
  | .stage, i => some (f0 i)
  | .xmom, i => some (f1 i)
  | .ymom, i => some (f2 i)
  | _, _ => none

theorem generic_ok (p : Par K) (B : BC K) (d : Dom K) (hd : ShallowWater d) (f0 f1 f2 : ℕ → K)
    (ids : List ℕ)
    (h : ∀ i ∈ ids, evaluate p d B (d.cells i) (d.edges i) = .ok [f0 i, f1 i, f2 i])
    (b : Q → ℕ → K) :
    genericSegment p B ids (d.withBv b) = .ok (d.withBv (over (tri f0 f1 f2) ids b)) := by
  induction ids generalizing b with
  | nil => simp [genericSegment]; rfl
  | cons i ids ih =>
    have hi := h i List.mem_cons_self
    have ih' := ih (fun k hk => h k (List.mem_cons_of_mem _ hk)) (over (tri f0 f1 f2) [i] b)
    rw [over_cons] at ih'
    rw [← ih']
    unfold genericSegment
    rw [List.foldlM_cons]
    have hstore : (d.withBv b).store i [f0 i, f1 i, f2 i] =
        d.withBv (over (tri f0 f1 f2) [i] b) := by
      rw [store_eq]
      simp only [withBv_withBv, withBv_bv, withBv_evolved, hd.2]
      congr 1
      funext q k
      unfold over
      by_cases hk : k = i
      · subst hk
        cases q <;> simp [lastVal, tri]
      · simp [hk]
    have hone : (do
        let q ← evaluate p (d.withBv b) B ((d.withBv b).cells i) ((d.withBv b).edges i)
        let q' ← (d.withBv b).complete ((d.withBv b).cells i) ((d.withBv b).edges i) q
        return (d.withBv b).store i q' : Except Err (Dom K)) =
        .ok (d.withBv (over (tri f0 f1 f2) [i] b)) := by
      rw [evaluate_withBv]
      simp only [withBv_cells, withBv_edges, hi]
      show (do let q' ← (d.withBv b).complete (d.cells i) (d.edges i) [f0 i, f1 i, f2 i]
               return (d.withBv b).store i q' : Except Err (Dom K)) = _
      have : (d.withBv b).complete (d.cells i) (d.edges i) [f0 i, f1 i, f2 i] =
          .ok [f0 i, f1 i, f2 i] := by
        simp [Dom.complete, hd.2]
      rw [this]
      show Except.ok ((d.withBv b).store i [f0 i, f1 i, f2 i]) = _
      rw [hstore]
    rw [hone]
    rfl

/-- The conditions whose vectorised version is meant to give the same as `evaluate`, with vectors of
the right length.  Missing: `Compute_fluxes_boundary` (writes nothing), and the three classes of
`C55_flather_differs`, `C55_characteristic_evaluate` and `C55_time_stage_zero_broken`. -/
inductive Sound : BC K → Prop
  | reflective : Sound .reflective
  | transmissive : Sound .transmissive
  | dirichlet (v : List K) : v.length = 3 → Sound (.dirichlet v)
  | time (f : K → Except Err (List K)) (dflt : Option (List K)) :
      (∀ t v, f t = .ok v → v.length = 3) → (∀ v, dflt = some v → v.length = 3) →
      Sound (.time f dflt)
  | nMomentum (f : K → Except Err K) (dflt : Option K) : Sound (.nMomentum f dflt)
  | timeSpace (f : K → K → K → Except Err (List K)) : Sound (.timeSpace f)
  | timeSpaceOr (f : K → K → K → Except Err (List K)) (B : BC K) : Sound (.timeSpaceOr f B)
  | setStage (f : K → Except Err K) : Sound (.setStage f)
  | stageZero : Sound .stageZero
  | discharge (s w : K) : Sound (.discharge s w)
  | file (index : ℕ → ℕ → Option ℕ) (F : K → ℕ → Except Err (List K)) : Sound (.file index F)
  | fileOr (index : ℕ → ℕ → Option ℕ) (F : K → ℕ → Except Err (List K)) (B : BC K) :
      Sound (.fileOr index F B)
  | field (mean : K) (B : BC K) : Sound (.field mean B)

theorem boundaryValue_length (f : K → Except Err (List K)) (dflt : Option (List K))
    (h1 : ∀ t v, f t = .ok v → v.length = 3) (h2 : ∀ v, dflt = some v → v.length = 3) (t : K)
    (v : List K) (h : boundaryValue f dflt t = .ok v) : v.length = 3 := by
  unfold boundaryValue at h
  cases hf : f t with
  | ok w => rw [hf] at h; simp only [Except.ok.injEq] at h; subst h; exact h1 t w hf
  | error e =>
    rw [hf] at h
    cases e <;> simp at h
    cases hd : dflt with
    | none => rw [hd] at h; simp at h
    | some w => rw [hd] at h; simp at h; subst h; exact h2 w hd

theorem vec3 (v : List K) (h : v.length = 3) : ∃ a b c, v = [a, b, c] := by
  match v, h with
  | [a, b, c], _ => exact ⟨a, b, c, rfl⟩

theorem vector_seg (d : Dom K) (hd : ShallowWater d) (a b c : K) (ids : List ℕ) :
    vectorSegment [a, b, c] ids d =
      .ok (d.withBv (over (tri (fun _ => a) (fun _ => b) (fun _ => c)) ids d.bv)) := by
  unfold vectorSegment
  simp only [hd.2, List.length_cons, List.length_nil, if_true, putVector_spec, le_refl]
  congr 2
  funext q i
  unfold over
  by_cases hi : i ∈ ids
  · simp only [hi, if_true]
    cases q <;> simp [lastVal, tri]
  · simp [hi]

/-- C55: for every shallow water domain and every list of boundary edges, the vectorised evaluation
and the loop over `evaluate` succeed together and give the same stage and momenta. -/
theorem C55_agree (p : Par K) (B : BC K) (hB : Sound B) (d : Dom K) (hd : ShallowWater d)
    (ids : List ℕ) :
    (∀ d1, evaluateSegment p B ids d = .ok d1 →
      ∃ d2, genericSegment p B ids d = .ok d2 ∧ SameConserved d1 d2) ∧
    (∀ d2, ids ≠ [] → genericSegment p B ids d = .ok d2 →
      ∃ d1, evaluateSegment p B ids d = .ok d1 ∧ SameConserved d1 d2) := by
  -- it is enough to give the values on both sides
  have key : ∀ f0 f1 f2 : ℕ → K, ∀ d1 : Dom K,
      (∀ i ∈ ids, evaluate p d B (d.cells i) (d.edges i) = .ok [f0 i, f1 i, f2 i]) →
      evaluateSegment p B ids d = .ok d1 →
      (∀ i, d1.bv .stage i = (if i ∈ ids then f0 i else d.bv .stage i) ∧
        d1.bv .xmom i = (if i ∈ ids then f1 i else d.bv .xmom i) ∧
        d1.bv .ymom i = (if i ∈ ids then f2 i else d.bv .ymom i)) →
      (∀ d1, evaluateSegment p B ids d = .ok d1 →
        ∃ d2, genericSegment p B ids d = .ok d2 ∧ SameConserved d1 d2) ∧
      (∀ d2, ids ≠ [] → genericSegment p B ids d = .ok d2 →
        ∃ d1, evaluateSegment p B ids d = .ok d1 ∧ SameConserved d1 d2) := by
    intro f0 f1 f2 d1 hev hseg hval
    have hgen := generic_ok p B d hd f0 f1 f2 ids hev d.bv
    rw [withBv_self] at hgen
    have hsame : SameConserved d1 (d.withBv (over (tri f0 f1 f2) ids d.bv)) := by
      intro i
      obtain ⟨h1, h2, h3⟩ := hval i
      rw [h1, h2, h3]
      by_cases hi : i ∈ ids <;> simp [over, hi, tri]
    constructor
    · intro d1' h1
      rw [hseg] at h1; simp only [Except.ok.injEq] at h1; subst h1
      exact ⟨_, hgen, hsame⟩
    · intro d2 _ h2
      rw [hgen] at h2; simp only [Except.ok.injEq] at h2; subst h2
      exact ⟨_, hseg, hsame⟩
  have triv : (∀ ids d, evaluateSegment p B ids d = genericSegment p B ids d) →
      (∀ d1, evaluateSegment p B ids d = .ok d1 →
        ∃ d2, genericSegment p B ids d = .ok d2 ∧ SameConserved d1 d2) ∧
      (∀ d2, ids ≠ [] → genericSegment p B ids d = .ok d2 →
        ∃ d1, evaluateSegment p B ids d = .ok d1 ∧ SameConserved d1 d2) := by
    intro h
    rw [h]
    exact ⟨fun d1 h1 => ⟨d1, h1, fun i => ⟨rfl, rfl, rfl⟩⟩,
      fun d2 _ h2 => ⟨d2, h2, fun i => ⟨rfl, rfl, rfl⟩⟩⟩
  have vec : ∀ a b c : K, (∀ i ∈ ids, evaluate p d B (d.cells i) (d.edges i) = .ok [a, b, c]) →
      evaluateSegment p B ids d = vectorSegment [a, b, c] ids d →
      (∀ d1, evaluateSegment p B ids d = .ok d1 →
        ∃ d2, genericSegment p B ids d = .ok d2 ∧ SameConserved d1 d2) ∧
      (∀ d2, ids ≠ [] → genericSegment p B ids d = .ok d2 →
        ∃ d1, evaluateSegment p B ids d = .ok d1 ∧ SameConserved d1 d2) := by
    intro a b c hev hs
    rw [vector_seg d hd] at hs
    refine key (fun _ => a) (fun _ => b) (fun _ => c) _ hev hs ?_
    intro i
    by_cases hi : i ∈ ids <;> simp [over, hi, tri]
  cases hB with
  | reflective =>
    refine key (fun i => d.edge .stage (d.cells i) (d.edges i)) _ _ _ (fun i hi => rfl) rfl ?_
    intro i
    by_cases hi : i ∈ ids
    · simp only [reflectiveSegment, put_bv, Dom.copyEdge, hi, and_true, reduceCtorEq,
        if_false, if_true, put_edge, put_cells, put_edges, rotate]
      refine ⟨trivial, ?_, ?_⟩ <;> ring
    · simp [reflectiveSegment, put_bv, Dom.copyEdge, hi]
  | transmissive =>
    by_cases hc : d.centroidTransmissive = true
    · refine key (fun i => d.cent .stage (d.cells i)) (fun i => d.cent .xmom (d.cells i))
        (fun i => d.cent .ymom (d.cells i)) _ (fun i hi => by
          simp [evaluate, hc, Dom.conservedCent, hd.1]) rfl ?_
      intro i
      by_cases hi : i ∈ ids <;> simp [transmissiveSegment, hc, hd.2, put_bv, hi]
    · refine key (fun i => d.edge .stage (d.cells i) (d.edges i))
        (fun i => d.edge .xmom (d.cells i) (d.edges i))
        (fun i => d.edge .ymom (d.cells i) (d.edges i)) _ (fun i hi => by
          simp [evaluate, hc, Dom.conservedAt, hd.1]) rfl ?_
      intro i
      by_cases hi : i ∈ ids <;> simp [transmissiveSegment, hc, hd.2, Dom.copyEdge, put_bv, hi]
  | dirichlet v hv =>
    obtain ⟨a, b, c, rfl⟩ := vec3 v hv
    exact vec a b c (fun i _ => rfl) rfl
  | time f dflt h1 h2 =>
    cases hv : boundaryValue f dflt d.time with
    | ok v =>
      obtain ⟨a, b, c, rfl⟩ := vec3 v (boundaryValue_length f dflt h1 h2 d.time v hv)
      exact vec a b c (fun i _ => by simp [evaluate, hv])
        (by simp [evaluateSegment, hv, bind, Except.bind])
    | error e =>
      constructor
      · intro d1 h
        simp [evaluateSegment, hv, bind, Except.bind] at h
      · intro d2 hne h
        cases ids with
        | nil => exact (hne rfl).elim
        | cons i ids =>
          simp [genericSegment, evaluate, hv, bind, Except.bind] at h
  | nMomentum f dflt =>
    cases hv : boundaryValue f dflt d.time with
    | ok x =>
      have hs : evaluateSegment p (.nMomentum f dflt) ids d = .ok (nMomentumSegment x ids d) := by
        simp [evaluateSegment, hv, bind, Except.bind, pure, Except.pure]
      refine key (fun _ => x) _ _ _ (fun i hi => by
        simp only [evaluate, hv, Except.map, Dom.conservedAt, hd.1, List.map_cons, List.map_nil,
          List.set_cons_zero, List.set_cons_succ]
        rfl) hs ?_
      intro i
      by_cases hi : i ∈ ids
      · simp [nMomentumSegment, put_bv, hi, mul_comm]
      · simp [nMomentumSegment, put_bv, hi]
    | error e =>
      constructor
      · intro d1 h
        simp [evaluateSegment, hv, bind, Except.bind] at h
      · intro d2 hne h
        cases ids with
        | nil => exact (hne rfl).elim
        | cons i ids =>
          simp [genericSegment, evaluate, hv, bind, Except.bind, Except.map] at h
  | _ => exact triv fun _ _ => rfl

/-! ### Where the two versions disagree -/

/-- C55, disagreement: whenever the prescribed stage is above the bed, the vectorised Flather
condition — the one `update_boundary` uses — imposes that stage with no momentum, whatever the
state inside. -/
theorem C55_flather_ignores_interior (p : Par K) (f : K → Except Err K) (d : Dom K) (out : K)
    (hf : f d.time = .ok out) (ids : List ℕ) (i : ℕ) (hi : i ∈ ids)
    (hbed : d.cent .elev (d.cells i) < out) :
    ∃ d1, evaluateSegment p (.flather f) ids d = .ok d1 ∧
      d1.bv .stage i = out ∧ d1.bv .xmom i = 0 ∧ d1.bv .ymom i = 0 := by
  refine ⟨flatherSegment p out ids d, by
    simp [evaluateSegment, hf, bind, Except.bind, pure, Except.pure], ?_⟩
  simp [flatherSegment, put_bv, Dom.copyEdge, hi, hbed, hbed.le]

/-- What `evaluate` of the Flather condition gives at an edge. -/
theorem flather_evaluate (p : Par K) (f : K → Except Err K) (d : Dom K) (hd : ShallowWater d)
    (out : K) (hf : f d.time = .ok out) (v e : ℕ) :
    evaluate p d (.flather f) v e =
      .ok [(flatherPoint p (d.normal v e) (d.cent .elev v) out (d.edge .stage v e)
          (d.edge .xmom v e) (d.edge .ymom v e)).1,
        (flatherPoint p (d.normal v e) (d.cent .elev v) out (d.edge .stage v e)
          (d.edge .xmom v e) (d.edge .ymom v e)).2.1,
        (flatherPoint p (d.normal v e) (d.cent .elev v) out (d.edge .stage v e)
          (d.edge .xmom v e) (d.edge .ymom v e)).2.2] := by
  simp [evaluate, hf, Except.map, Dom.conservedAt, hd.1]

/-- C55, disagreement: with still water inside and a different stage outside, both above the bed,
the two versions of the Flather condition give different stages. -/
theorem C55_flather_differs (p : Par K) (f : K → Except Err K) (d : Dom K) (hd : ShallowWater d)
    (out : K) (hf : f d.time = .ok out) (ids : List ℕ) (i : ℕ) (hi : i ∈ ids)
    (hbed : d.cent .elev (d.cells i) < out)
    (hwet : d.cent .elev (d.cells i) < d.edge .stage (d.cells i) (d.edges i))
    (hstill : d.edge .xmom (d.cells i) (d.edges i) = 0 ∧ d.edge .ymom (d.cells i) (d.edges i) = 0)
    (hne : d.edge .stage (d.cells i) (d.edges i) ≠ out)
    (hs : ∀ x > 0, p.sqrt x ≠ 0) (hg : 0 < p.g) :
    ∃ d1 d2, evaluateSegment p (.flather f) ids d = .ok d1 ∧
      genericSegment p (.flather f) ids d = .ok d2 ∧ d1.bv .stage i ≠ d2.bv .stage i := by
  obtain ⟨d1, h1, h2, -, -⟩ := C55_flather_ignores_interior p f d out hf ids i hi hbed
  have hgen := generic_ok p (.flather f) d hd _ _ _ ids
    (fun k _ => flather_evaluate p f d hd out hf (d.cells k) (d.edges k)) d.bv
  rw [withBv_self] at hgen
  refine ⟨d1, _, h1, hgen, ?_⟩
  rw [h2]
  simp only [withBv_bv, over, hi, if_true, tri, Option.getD_some]
  have hdep : max (d.edge .stage (d.cells i) (d.edges i) - d.cent .elev (d.cells i)) 0 =
      d.edge .stage (d.cells i) (d.edges i) - d.cent .elev (d.cells i) :=
    max_eq_left (by linarith)
  have hpos : 0 < d.edge .stage (d.cells i) (d.edges i) - d.cent .elev (d.cells i) := by linarith
  have hsne := hs _ (div_pos hg hpos)
  unfold flatherPoint
  simp only [hdep, hpos.ne', if_false, hstill.1, hstill.2, mul_zero, add_zero, zero_div, zero_add,
    zero_sub]
  generalize p.sqrt (p.g / (d.edge .stage (d.cells i) (d.edges i) - d.cent .elev (d.cells i))) = s
    at *
  intro h
  apply hne
  have h2s : (2 * s) ≠ 0 := mul_ne_zero two_ne_zero hsne
  rw [eq_div_iff h2s] at h
  have : s * (d.edge .stage (d.cells i) (d.edges i) - out) = 0 := by linear_combination -h
  rcases mul_eq_zero.1 this with h0 | h0
  · exact (hsne h0).elim
  · linarith

/-- C55, what is left for the Flather condition: the two versions agree at edges that are wet with
the outside stage not above the bed, or dry with the outside stage not below it.  Missing: every
edge with water on both sides (`C55_flather_differs`). -/
theorem C55_flather_partial (p : Par K) (f : K → Except Err K) (d : Dom K) (hd : ShallowWater d)
    (out : K) (hf : f d.time = .ok out) (ids : List ℕ)
    (h : ∀ i ∈ ids,
      (d.cent .elev (d.cells i) < d.edge .stage (d.cells i) (d.edges i) ∧
        out ≤ d.cent .elev (d.cells i)) ∨
      (d.edge .stage (d.cells i) (d.edges i) ≤ d.cent .elev (d.cells i) ∧
        d.cent .elev (d.cells i) ≤ out)) :
    ∃ d1 d2, evaluateSegment p (.flather f) ids d = .ok d1 ∧
      genericSegment p (.flather f) ids d = .ok d2 ∧ SameConserved d1 d2 := by
  have hgen := generic_ok p (.flather f) d hd _ _ _ ids
    (fun k _ => flather_evaluate p f d hd out hf (d.cells k) (d.edges k)) d.bv
  rw [withBv_self] at hgen
  refine ⟨flatherSegment p out ids d, _, by
    simp [evaluateSegment, hf, bind, Except.bind, pure, Except.pure], hgen, ?_⟩
  intro i
  by_cases hi : i ∈ ids
  · simp only [withBv_bv, over, hi, if_true, tri, Option.getD_some]
    simp only [flatherSegment, put_bv, Dom.copyEdge, hi, and_true, reduceCtorEq,
      if_false, if_true, put_edge, put_cells, put_edges, flatherPoint]
    rcases h i hi with ⟨h1, h2⟩ | ⟨h1, h2⟩
    · have hpos : 0 < d.edge .stage (d.cells i) (d.edges i) - d.cent .elev (d.cells i) := by
        linarith
      simp only [max_eq_left hpos.le, hpos.ne', not_lt.2 h2, gt_iff_lt, or_self, decide_false,
        Bool.false_eq_true, if_false]
      exact ⟨trivial, trivial, trivial⟩
    · have hneg : d.edge .stage (d.cells i) (d.edges i) - d.cent .elev (d.cells i) ≤ 0 := by
        linarith
      simp [max_eq_right hneg, h2]
  · simp [over, hi, flatherSegment, put_bv, Dom.copyEdge]

/-- C55, disagreement: `evaluate` of the characteristic stage condition always raises. -/
theorem C55_characteristic_evaluate (p : Par K) (f : K → Except Err K) (d : Dom K) (v e : ℕ) :
    ∃ x, evaluate p d (.characteristic f) v e = .error x := by
  unfold evaluate
  cases f d.time with
  | ok _ => exact ⟨_, rfl⟩
  | error x => exact ⟨x, rfl⟩

/-- C55, disagreement: the time-dependent stage condition with zero momentum can be created but
neither version can be evaluated. -/
theorem C55_time_stage_zero_broken (p : Par K) (f : K → Except Err K) (d : Dom K) (v e : ℕ)
    (ids : List ℕ) :
    evaluate p d (.timeStageZero f) v e = .error .attribute ∧
    evaluateSegment p (.timeStageZero f) ids d = .error .attribute := ⟨rfl, rfl⟩

/-- C55, disagreement: a Dirichlet condition with too many values raises when evaluated edge by edge
but is silently cut off by the vectorised version. -/
theorem C55_dirichlet_too_long (p : Par K) (a b c x : K) (l : List K) (d : Dom K)
    (hd : ShallowWater d) (i : ℕ) (ids : List ℕ) :
    (∃ d1, evaluateSegment p (.dirichlet (a :: b :: c :: x :: l)) (i :: ids) d = .ok d1 ∧
      d1.bv .stage i = a ∧ d1.bv .xmom i = b ∧ d1.bv .ymom i = c) ∧
    genericSegment p (.dirichlet (a :: b :: c :: x :: l)) (i :: ids) d = .error .badLength := by
  constructor
  · have hs : evaluateSegment p (.dirichlet (a :: b :: c :: x :: l)) (i :: ids) d =
        vectorSegment (a :: b :: c :: x :: l) (i :: ids) d := rfl
    rw [hs]
    unfold vectorSegment
    rw [if_neg (by simp [hd.2]), putVector_spec, if_pos (by simp [hd.1])]
    refine ⟨_, rfl, ?_⟩
    simp [hd.2, hd.1, Dom.copyEdge, over, lastVal]
  · simp [genericSegment, evaluate, Dom.complete, hd.1, hd.2, bind, Except.bind]

end Verif.Bdry
