import Verif.Forcing.Lemmas

/-!
# C84: rain and inflow
-/

namespace Verif.Forcing

open Verif.Polygon (Pt)

variable {M : Loop.Mesh ℝ} {B : List (Pt ℝ)}

/-- **C84.** Arguments are accepted exactly if they describe a place, the place passes the test of lying within the boundary polygon, and some triangle
belongs to it. -/
theorem C84_accepts (hc : M.Ccw) (c : Option (Pt ℝ)) (r : Option ℝ) (p : Option (List (Pt ℝ))) :
    (∃ b, build M B c r p = .ok b) ↔ ∃ A : Place, A.Args c r p ∧ A.Tested B ∧ (A = .everywhere ∨ ∃ k, A.Has M k) := by
  have key : ∀ A : Place, A.Args c r p → ((∃ b, build M B c r p = .ok b) ↔ A.Tested B ∧ (A = .everywhere ∨ ∃ k, A.Has M k)) := by
    intro A hA
    unfold build
    rcases indices_place M hA with ⟨h1, h2⟩ | ⟨l, h1, h2, h3, h4⟩
    · subst h2
      obtain ⟨rfl, rfl, rfl⟩ := hA
      simp only [h1]
      by_cases hp : Polygon.polygonArea B > 0
      · simp [hp, Place.Tested, circleOutside]
      · simp [hp, Place.Tested, circleOutside]
    · have hl : l.length ≠ 0 ↔ ∃ k, A.Has M k := by
        rw [Ne, List.length_eq_zero_iff]
        constructor
        · intro h
          obtain ⟨k, hk⟩ := List.exists_mem_of_ne_nil l h
          exact ⟨k, (h3 k).mp hk⟩
        · rintro ⟨k, hk⟩ e
          exact List.not_mem_nil (e ▸ (h3 k).mpr hk)
      have hpos : (∃ k, A.Has M k) → 0 < ∑ k ∈ A.tris M, size M k := by
        classical
        rintro ⟨k, hk⟩
        refine Finset.sum_pos (fun j hj => ?_) ⟨k, ?_⟩
        · exact ccw_size hc (Finset.mem_range.mp (Finset.mem_filter.mp hj).1)
        · exact Finset.mem_filter.mpr ⟨Finset.mem_range.mpr (has_lt hk), hk⟩
      simp only [h1, foldl_area, zero_add, tris_sum M h2 h3]
      have hT : A.Tested B ↔ ¬ circleOutside B c r = true ∧ ¬ ((p.getD []).any fun p => !inside B p) = true := by
        cases A with
        | everywhere => exact absurd rfl h4
        | circle a b =>
          obtain ⟨rfl, rfl, rfl⟩ := hA
          have e : ∀ q, inside B q = true ↔ Within B q := inside_iff B
          simp only [Place.Tested, circleOutside, periphery, Bool.or_eq_true, Bool.not_eq_true', List.any_map, List.any_eq_true, List.mem_range, Function.comp, Option.getD_none,
            List.not_mem_nil, false_and, exists_false, not_false_eq_true, and_true, not_or, not_exists, not_and, Bool.not_eq_false, e]
        | polygon P =>
          obtain ⟨rfl, rfl, rfl⟩ := hA
          have e : ∀ q, inside B q = true ↔ Within B q := inside_iff B
          simp [Place.Tested, circleOutside, e]
      have hargs : (c.isNone && r.isSome) = false ∧ (r.isNone && c.isSome) = false ∧ (c.isSome && p.isSome) = false := by
        cases A <;> obtain ⟨rfl, rfl, rfl⟩ := hA <;> simp
      rw [hT, hargs.1, hargs.2.1, hargs.2.2]
      simp only [Bool.false_eq_true, if_false, h4, false_or]
      constructor
      · rintro ⟨b, hb⟩
        split_ifs at hb with g1 g2 g3 g4
        exact ⟨⟨g1, g2⟩, hl.mp g3⟩
      · rintro ⟨⟨g1, g2⟩, g3⟩
        rw [if_neg g1, if_neg g2, if_neg (hl.mpr g3), if_pos (hpos g3)]
        exact ⟨_, rfl⟩
  constructor
  · rintro ⟨b, hb⟩
    have : ∃ A : Place, A.Args c r p := by
      cases c with
      | none =>
        cases r with
        | none =>
          cases p with
          | none => exact ⟨.everywhere, rfl, rfl, rfl⟩
          | some P => exact ⟨.polygon P, rfl, rfl, rfl⟩
        | some b => simp [build] at hb
      | some a =>
        cases r with
        | none => simp [build] at hb
        | some b =>
          cases p with
          | none => exact ⟨.circle a b, rfl, rfl, rfl⟩
          | some P => simp [build] at hb
    obtain ⟨A, hA⟩ := this
    exact ⟨A, hA, (key A hA).mp ⟨b, hb⟩⟩
  · rintro ⟨A, hA, h⟩
    exact (key A hA).mpr h

/-- **C84.** Rain of `x` mm/s raises the rate of change of the stage by `x/1000` m/s on every triangle of the place and on no other; the volume per time is that
times the area of these triangles. A function of time is evaluated at the time of the call; if it has no value the default rate is used in the same way, if there
is one and the time is too late. -/
theorem C84_rain {A : Place} {rate : Rate} {c r p d T} (hA : A.Args c r p) (h : rainfall M B rate c r p d = .ok T) (t : ℝ) {u : List ℝ} (hu : u.length = M.n) :
    (∀ x, rate.eval t = .val x → ∃ u', T.call t u = .ok (u', T, false) ∧ Raised M A u u' (x / 1000) ∧ volume M u u' = (∑ k ∈ A.tris M, size M k) * (x / 1000)) ∧
    (rate.eval t = .early → T.call t u = .error .early) ∧
    (rate.eval t = .late → d = none → T.call t u = .error .late) ∧
    (∀ f, rate.eval t = .late → d = some f → ∃ u' T' w, T.call t u = .ok (u', T', w) ∧ Raised M A u u' (f t / 1000)) := by
  unfold rainfall at h
  obtain ⟨b, hb⟩ : ∃ b, build M B c r p = .ok b := by
    cases hb : build M B c r p with
    | error e => rw [hb] at h; cases h
    | ok b => exact ⟨b, rfl⟩
  rw [hb] at h
  simp only [Except.map, Except.ok.injEq] at h
  have hr : ∀ x, Raised M A u (apply b.1 x u) x := fun x => apply_raised hA hb x u hu
  have he : T.updateRate t = (rate.eval t).map (· / 1000) := by
    subst h
    cases rate <;> rfl
  have hi : T.indices = b.1 := by subst h; rfl
  have hd : T.dflt = d.map fun d t => d t / 1000 := by subst h; rfl
  refine ⟨fun x hx => ?_, fun hx => ?_, fun hx hdn => ?_, fun f hx hdf => ?_⟩
  · refine ⟨apply b.1 (x / 1000) u, ?_, hr _, volume_raised hu (hr _)⟩
    unfold Term.call
    rw [he, hx, hi]
    rfl
  · unfold Term.call
    rw [he, hx]
    rfl
  · unfold Term.call
    rw [he, hx, hd, hdn]
    rfl
  · refine ⟨apply b.1 (f t / 1000) u, { T with invoked := true }, !T.invoked, ?_, hr _⟩
    unfold Term.call
    rw [he, hx, hd, hdf, hi]
    rfl

/-- What the calls of an inflow do. -/
theorem inflow_call {A : Place} {rate : Rate} {c r p d T} (hA : A.Args c r p) (h : inflow M B rate c r p d = .ok T) (t : ℝ) {u : List ℝ} (hu : u.length = M.n) :
    ∃ a : ℝ, 0 < a ∧ (A = .everywhere → a = Polygon.polygonArea B) ∧ (A ≠ .everywhere → a = ∑ k ∈ A.tris M, size M k) ∧
    (∀ x, rate.eval t = .val x → ∃ u', T.call t u = .ok (u', T, false) ∧ Raised M A u u' (x / a)) ∧
    (rate.eval t = .early → T.call t u = .error .early) ∧
    (rate.eval t = .late → d = none → T.call t u = .error .late) ∧
    (∀ f, rate.eval t = .late → d = some f → ∃ u' w, T.call t u = .ok (u', { T with invoked := true }, w) ∧ Raised M A u u' (f t)) := by
  unfold inflow at h
  obtain ⟨b, hb⟩ : ∃ b, build M B c r p = .ok b := by
    cases hb : build M B c r p with
    | error e => rw [hb] at h; cases h
    | ok b => exact ⟨b, rfl⟩
  rw [hb] at h
  simp only [Except.map, Except.ok.injEq] at h
  have hr : ∀ x, Raised M A u (apply b.1 x u) x := fun x => apply_raised hA hb x u hu
  have he : T.updateRate t = (rate.eval t).map (· / b.2) := by
    subst h
    cases rate <;> rfl
  have hi : T.indices = b.1 := by subst h; rfl
  have hd : T.dflt = d := by subst h; rfl
  have ha : 0 < b.2 ∧ (A = .everywhere → b.2 = Polygon.polygonArea B) ∧ (A ≠ .everywhere → b.2 = ∑ k ∈ A.tris M, size M k) := by
    rcases build_ok hA hb with ⟨h1, h2, h3⟩ | ⟨l, h1, h2, h3, h4, h5⟩
    · rw [h2]
      exact ⟨h3, fun _ => rfl, fun g => absurd h1 g⟩
    · rw [h1]
      exact ⟨h5, fun g => absurd g h4, fun _ => rfl⟩
  refine ⟨b.2, ha.1, ha.2.1, ha.2.2, fun x hx => ?_, fun hx => ?_, fun hx hdn => ?_, fun f hx hdf => ?_⟩
  · refine ⟨apply b.1 (x / b.2) u, ?_, hr _⟩
    unfold Term.call
    rw [he, hx, hi]
    rfl
  · unfold Term.call
    rw [he, hx]
    rfl
  · unfold Term.call
    rw [he, hx, hd, hdn]
    rfl
  · refine ⟨apply b.1 (f t) u, !T.invoked, ?_, hr _⟩
    unfold Term.call
    simp only [he, hx, Out.map, hd.trans hdf, hi]

/-- **C84.** An inflow of `Q` m³/s into a circle or polygon brings in exactly `Q`, whatever the triangles, as a uniform rise on the triangles of the place. -/
theorem C84_inflow {A : Place} {rate : Rate} {c r p d T} (hA : A.Args c r p) (h : inflow M B rate c r p d = .ok T) (hw : A ≠ .everywhere) (t Q : ℝ)
    (hQ : rate.eval t = .val Q) {u : List ℝ} (hu : u.length = M.n) :
    ∃ u', T.call t u = .ok (u', T, false) ∧ Raised M A u u' (Q / ∑ k ∈ A.tris M, size M k) ∧ volume M u u' = Q := by
  obtain ⟨a, h1, -, h2, h3, -⟩ := inflow_call hA h t hu
  obtain ⟨u', h4, h5⟩ := h3 Q hQ
  rw [h2 hw] at h5 h1
  refine ⟨u', h4, h5, ?_⟩
  rw [volume_raised hu h5]
  field_simp

/-- **C84.** An inflow over the whole mesh brings in `Q` times the area of the mesh over the area within the boundary polygon. -/
theorem C84_whole {rate : Rate} {d T} (h : inflow M B rate none none none d = .ok T) (t Q : ℝ) (hQ : rate.eval t = .val Q) {u : List ℝ} (hu : u.length = M.n) :
    ∃ u', T.call t u = .ok (u', T, false) ∧ Raised M .everywhere u u' (Q / Polygon.polygonArea B) ∧ volume M u u' = Q * (M.area / Polygon.polygonArea B) := by
  obtain ⟨a, h1, h2, -, h3, -⟩ := inflow_call (A := .everywhere) ⟨rfl, rfl, rfl⟩ h t hu
  obtain ⟨u', h4, h5⟩ := h3 Q hQ
  rw [h2 rfl] at h5 h1
  refine ⟨u', h4, h5, ?_⟩
  rw [volume_raised hu h5, tris_everywhere]
  ring

/-- **C84.** So it brings in exactly `Q` on a mesh whose boundary is one loop. -/
theorem C84_whole_one_loop (hv : M.Valid) (hs : M.Simple) (hc : M.Ccw) (h1 : M.OneLoop) (hn : B.Nodup) (hB : Loop.Closed M.Bd B) (hne : B ≠ [])
    {rate : Rate} {d T} (h : inflow M B rate none none none d = .ok T) (t Q : ℝ) (hQ : rate.eval t = .val Q) {u : List ℝ} (hu : u.length = M.n) :
    ∃ u', T.call t u = .ok (u', T, false) ∧ volume M u u' = Q := by
  obtain ⟨u', h2, -, h3⟩ := C84_whole h t Q hQ hu
  obtain ⟨-, -, h4, h5⟩ := Loop.C83_one_loop hv hs hc h1 hn hB hne
  refine ⟨u', h2, ?_⟩
  rw [h3, h4, div_self h5.ne', mul_one]

/-- **C84.** An inflow without value at the time of the call: too early is an error; too late is an error unless there is a default rate, which is added as a rate
of change of stage **without** being divided by the area, so that the volume per time is the default rate times the area. -/
theorem C84_default {A : Place} {rate : Rate} {c r p d T} (hA : A.Args c r p) (h : inflow M B rate c r p d = .ok T) (t : ℝ) {u : List ℝ} (hu : u.length = M.n) :
    (rate.eval t = .early → T.call t u = .error .early) ∧
    (rate.eval t = .late → d = none → T.call t u = .error .late) ∧
    (∀ f, rate.eval t = .late → d = some f → ∃ u' T' w, T.call t u = .ok (u', T', w) ∧ Raised M A u u' (f t) ∧ volume M u u' = (∑ k ∈ A.tris M, size M k) * f t) := by
  obtain ⟨a, -, -, -, -, h1, h2, h3⟩ := inflow_call hA h t hu
  refine ⟨h1, h2, fun f hf hd => ?_⟩
  obtain ⟨u', w, h4, h5⟩ := h3 f hf hd
  exact ⟨u', _, w, h4, h5, volume_raised hu h5⟩

theorem calls_invoked (T : Term) (hT : T.invoked = true) (l : List (ℝ × List ℝ)) : ∀ w ∈ T.calls l, w = false := by
  induction l with
  | nil => intro w hw; simp [Term.calls] at hw
  | cons a l ih =>
    obtain ⟨t, u⟩ := a
    intro w hw
    unfold Term.calls Term.call at hw
    cases h : T.updateRate t with
    | early => simp [h] at hw
    | val x =>
      simp only [h, List.mem_cons] at hw
      rcases hw with hw | hw
      · exact hw
      · exact ih w hw
    | late =>
      cases hd : T.dflt with
      | none => simp [h, hd] at hw
      | some d =>
        have e : ({ T with dflt := some d, invoked := true } : Term) = T := by cases T; simp_all
        simp only [h, hd, e, List.mem_cons, hT, Bool.not_true] at hw
        rcases hw with hw | hw
        · exact hw
        · exact ih w hw

/-- **C84.** The warning that the default rate is used is issued at the first such call and never again. -/
theorem C84_warning {rate : Rate} {c r p d T} (h : inflow M B rate c r p d = .ok T ∨ rainfall M B rate c r p d = .ok T) (l : List (ℝ × List ℝ)) :
    (T.calls l).count true ≤ 1 ∧ ∀ i, (T.calls l)[i]? = some true ↔
      (i < (T.calls l).length ∧ (l[i]?.map fun a => rate.eval a.1) = some .late ∧ ∀ j < i, (l[j]?.map fun a => rate.eval a.1) ≠ some .late) := by
  have hT : T.invoked = false ∧ ∀ t, T.updateRate t = .late ↔ rate.eval t = .late := by
    rcases h with h | h
    · unfold inflow at h
      cases hb : build M B c r p with
      | error e => rw [hb] at h; cases h
      | ok b =>
        rw [hb] at h
        simp only [Except.map, Except.ok.injEq] at h
        subst h
        refine ⟨rfl, fun t => ?_⟩
        show Out.map _ (rate.eval t) = _ ↔ _
        cases rate.eval t <;> simp [Out.map]
    · unfold rainfall at h
      cases hb : build M B c r p with
      | error e => rw [hb] at h; cases h
      | ok b =>
        rw [hb] at h
        simp only [Except.map, Except.ok.injEq] at h
        subst h
        refine ⟨rfl, fun t => ?_⟩
        cases rate with
        | num x =>
          show Out.val (x / 1000) = _ ↔ Out.val x = _
          simp
        | fn f =>
          show Out.map _ (f t) = _ ↔ f t = _
          cases f t <;> simp [Out.map]
  obtain ⟨h0, h1⟩ := hT
  clear h
  induction l with
  | nil => simp [Term.calls]
  | cons a l ih =>
    obtain ⟨t, u⟩ := a
    unfold Term.calls Term.call
    cases h : T.updateRate t with
    | early => simp
    | val x =>
      have hx : rate.eval t ≠ .late := by rw [Ne, ← h1, h]; simp
      simp only
      refine ⟨by simpa using ih.1, fun i => ?_⟩
      cases i with
      | zero => simp [hx]
      | succ i =>
        simp only [List.getElem?_cons_succ, List.length_cons, add_lt_add_iff_right]
        rw [ih.2 i]
        refine and_congr_right fun _ => and_congr_right fun _ => ⟨fun g j hj => ?_, fun g j hj => ?_⟩
        · cases j with
          | zero => simpa using hx
          | succ j => simpa using g j (by omega)
        · simpa using g (j + 1) (by omega)
    | late =>
      have hx : rate.eval t = .late := (h1 t).mp h
      cases hd : T.dflt with
      | none => simp
      | some d =>
        have hf := calls_invoked { T with invoked := true } rfl l
        rw [hd] at hf
        simp only [hd, h0, Bool.not_false] at hf ⊢
        refine ⟨?_, fun i => ?_⟩
        · rw [List.count_cons_self]
          have : List.count true (({ T with dflt := some d, invoked := true } : Term).calls l) = 0 := by
            rw [List.count_eq_zero]
            intro g
            exact absurd (hf true g) (by decide)
          simpa using le_of_eq this
        · cases i with
          | zero => simp [hx]
          | succ i =>
            simp only [List.getElem?_cons_succ]
            constructor
            · intro g
              exact absurd (hf true (List.mem_of_getElem? g)) (by decide)
            · rintro ⟨-, -, g⟩
              exact absurd (by simp [hx]) (g 0 (by omega))

end Verif.Forcing
