import Verif.PlotU.Props

/-! # C100: values read from result files at the centroids -/

namespace Verif.PlotU

set_option linter.unusedSectionVars false

open Verif.Polygon (Pt IsSqrt)
open Verif.FileFn (Var)

variable {K : Type*} [Field K] [LinearOrder K] [IsStrictOrderedRing K]

theorem mean_corners {f : Sww K} {k : ℕ} {P : ℕ → K → Prop} {g : ℕ → K} {a0 a1 a2 : K} (h : Corners f k P a0 a1 a2)
    (hg : ∀ j a, P j a → g j = a) : mean f.vols g k = (a0 + a1 + a2) / 3 := by
  obtain ⟨t, ht, h0, h1, h2⟩ := h
  unfold mean
  simp only [List.getD, ht, Option.getD_some]
  rw [hg _ _ h0, hg _ _ h1, hg _ _ h2]

theorem corners_lt {f : Sww K} {k : ℕ} {P : ℕ → K → Prop} {a0 a1 a2 : K} (h : Corners f k P a0 a1 a2) : k < f.vols.length := by
  obtain ⟨t, ht, -⟩ := h
  exact (List.getElem?_eq_some_iff.mp ht).1

theorem cent_stored {f : Sww K} {name : String} {v : Var K} (hv : centVar f name = some v) {i k : ℕ} {a : K} (h : Cent f name i k a) :
    Stored i k a v := by
  unfold centVar at hv
  rcases h with h | ⟨hn, a0, a1, a2, hc, rfl⟩
  · obtain ⟨w, hw, h⟩ := h
    rw [hw] at hv
    simp only [Option.some.injEq] at hv
    subst hv
    exact h
  · rw [hn] at hv
    simp only at hv
    have hk := corners_lt hc
    cases hw : f.vars name with
    | none => rw [hw] at hv; simp at hv
    | some w =>
      rw [hw] at hv
      have key : ∀ j a, f.Holds name i j a → w.value i j = a := fun j a h => holds_value hw h
      cases w with
      | one w =>
        simp only [Option.some.injEq] at hv
        subst hv
        have := mean_corners (g := fun j => w.getD j 0) hc key
        rw [← this]
        simp [Stored, hk]
      | two rows =>
        simp only [Option.some.injEq] at hv
        subst hv
        have hr : ∃ r, rows[i]? = some r := by
          obtain ⟨t, -, ⟨w', hw', h0⟩, -⟩ := hc
          rw [hw] at hw'
          obtain rfl := Option.some.inj hw'
          obtain ⟨r, hr, -⟩ := h0
          exact ⟨r, hr⟩
        obtain ⟨r, hr⟩ := hr
        have := mean_corners (g := fun j => (rows.getD i []).getD j 0) hc key
        simp only [List.getD, hr, Option.getD_some] at this
        rw [← this]
        refine ⟨_, by rw [List.getElem?_map, hr]; rfl, ?_⟩
        simp [hk, List.getD]

theorem cent_value {f : Sww K} {name : String} {v : Var K} (hv : centVar f name = some v) {i k : ℕ} {a : K} (h : Cent f name i k a) :
    v.value i k = a := stored_value (cent_stored hv h)

/-- With a bed that does not change the reduced elevations are those of the file. -/
theorem fixed_elev {f : Sww K} {el : Var K} (hv : centVar f "elevation" = some el) (hf : FixedCent f) {inds : Option (List ℕ)} {m n i k : ℕ} {b : K}
    (h : Cent f "elevation" i k b) : (firstRow (getInds inds m n el)).getD k 0 = b ∧ (firstRow (getInds inds m n el))[k]? = some b := by
  have hval := cent_stored hv h
  have : ∃ v, el = .one v := by
    unfold centVar at hv
    rcases hf with ⟨v, hc⟩ | ⟨hc, v, hc'⟩
    · rw [show "elevation" ++ "_c" = "elevation_c" from rfl, hc] at hv
      simp only [Option.some.injEq] at hv
      exact ⟨v, hv.symm⟩
    · rw [show "elevation" ++ "_c" = "elevation_c" from rfl, hc, hc'] at hv
      simp only [Option.some.injEq] at hv
      exact ⟨_, hv.symm⟩
  obtain ⟨v, rfl⟩ := this
  simp only [getInds, firstRow, Stored] at hval ⊢
  exact ⟨by simp [List.getD, hval], hval⟩

/-- The flow found is that described. -/
theorem flow_spec {f : Sww K} {ex : Bool} {hmin : K} {l : List ℕ} {elev : List K} {q : Flow K} (hh : 0 ≤ hmin)
    (h : flow f ex hmin l elev = some q) (helev : FixedCent f → ∀ i k b, Cent f "elevation" i k b → elev.getD k 0 = b) (i k : ℕ) :
    (∀ p v, CentFlow f ex hmin "xmomentum" i k p v → q.xm i k = p ∧ q.xv i k = v) ∧
    (∀ p v, CentFlow f ex hmin "ymomentum" i k p v → q.ym i k = p ∧ q.yv i k = v) := by
  unfold flow at h
  cases hx : f.vars "xmomentum_c" with
  | some xm =>
    rw [hx] at h
    simp only at h
    cases hy : f.vars "ymomentum_c" with
    | none => rw [hy] at h; simp at h
    | some ym =>
      cases hs : f.vars "stage_c" with
      | none => rw [hy, hs] at h; simp at h
      | some st =>
        rw [hy, hs] at h
        simp only [Option.some.injEq] at h
        subst h
        have hd : ∀ d, CentDepth f i k d → centHeight f st elev i k = d := by
          unfold centHeight
          rintro d (⟨w, hw, hd⟩ | ⟨hn, hf, a, b, ha, hb, rfl⟩)
          · rw [hw]
            exact stored_value hd
          · rw [hn]
            simp only
            rw [holds_value hs ha, helev hf i k b hb]
        refine ⟨?_, ?_⟩
        · rintro p v (⟨hp, -, d, h1, h2⟩ | ⟨hn, -⟩)
          · have e : xm.value i k = p := holds_value hx hp
            refine ⟨e, ?_⟩
            simp only
            rw [hd d h1, e]
            exact vel_unique hh (velocity_vel hh p d) h2
          · rw [hx] at hn
            simp at hn
        · rintro p v (⟨hp, -, d, h1, h2⟩ | ⟨hn, -⟩)
          · have e : ym.value i k = p := holds_value hy hp
            refine ⟨e, ?_⟩
            simp only
            rw [hd d h1, e]
            exact vel_unique hh (velocity_vel hh p d) h2
          · rw [hx] at hn
            simp at hn
  | none =>
    rw [hx] at h
    simp only at h
    cases h1 : f.vars "stage" with
    | none => rw [h1] at h; simp at h
    | some st =>
      cases h2 : f.vars "elevation" with
      | none => rw [h1, h2] at h; simp at h
      | some el =>
        cases h3 : f.vars "xmomentum" with
        | none => rw [h1, h2, h3] at h; simp at h
        | some xm =>
          cases h4 : f.vars "ymomentum" with
          | none => rw [h1, h2, h3, h4] at h; simp at h
          | some ym =>
            rw [h1, h2, h3, h4] at h
            simp only at h
            cases h5 : vertexHeight f l st el with
            | none => rw [h5] at h; simp at h
            | some hv =>
              rw [h5] at h
              simp only at h
              have hhv : ∀ i j, hv i j = st.value i j - el.value i j := by
                intro i j
                cases el with
                | one v =>
                  simp only [vertexHeight, Option.some.injEq] at h5
                  rw [← h5]
                  rfl
                | two v =>
                  simp only [vertexHeight] at h5
                  split_ifs at h5
                  simp only [Option.some.injEq] at h5
                  rw [← h5]
              have hm : ∀ s0 s1 s2 b0 b1 b2, Corners f k (f.Holds "stage" i) s0 s1 s2 → Corners f k (f.Holds "elevation" i) b0 b1 b2 →
                  mean f.vols (hv i) k = (s0 - b0 + (s1 - b1) + (s2 - b2)) / 3 := by
                intro s0 s1 s2 b0 b1 b2 hs hb
                have e1 := mean_corners (g := fun j => st.value i j) hs fun j a h => holds_value h1 h
                have e2 := mean_corners (g := fun j => el.value i j) hb fun j a h => holds_value h2 h
                have e3 : mean f.vols (hv i) k = mean f.vols (fun j => st.value i j) k - mean f.vols (fun j => el.value i j) k := by
                  simp only [mean, hhv]
                  ring
                rw [e3, e1, e2]
                ring
              have key : ∀ (name : String) (mom : Var K), f.vars name = some mom → name ++ "_c" ≠ "" → ∀ p v, CentFlow f ex hmin name i k p v →
                  if ex then mean f.vols (fun j => velocity hmin (mom.value i j) (hv i j)) k = v ∧ v * mean f.vols (hv i) k = p
                  else mean f.vols (fun j => mom.value i j) k = p ∧ velocity hmin p (mean f.vols (hv i) k) = v := by
                rintro name mom hmom - p v (⟨-, hn, -⟩ | ⟨-, u0, u1, u2, s0, s1, s2, b0, b1, b2, hu, hs, hb, hc⟩)
                · rw [hx] at hn
                  simp at hn
                · rw [hm s0 s1 s2 b0 b1 b2 hs hb]
                  have hmean := mean_corners (g := fun j => mom.value i j) hu fun j a h => holds_value hmom h
                  cases ex with
                  | false =>
                    simp only [Bool.false_eq_true, if_false] at hc ⊢
                    refine ⟨by rw [hmean, hc.1], ?_⟩
                    exact vel_unique hh (velocity_vel hh _ _) hc.2
                  | true =>
                    simp only [if_true] at hc ⊢
                    obtain ⟨v0, v1, v2, hv0, hv1, hv2, hv', hp⟩ := hc
                    refine ⟨?_, hp.symm⟩
                    obtain ⟨t, ht, c0, c1, c2⟩ := hu
                    obtain ⟨t', ht', c3, c4, c5⟩ := hs
                    obtain ⟨t'', ht'', c6, c7, c8⟩ := hb
                    rw [ht] at ht' ht''
                    obtain rfl := Option.some.inj ht'
                    obtain rfl := Option.some.inj ht''
                    simp only [mean, List.getD, ht, Option.getD_some, hhv]
                    rw [holds_value hmom c0, holds_value hmom c1, holds_value hmom c2, holds_value h1 c3, holds_value h1 c4, holds_value h1 c5,
                      holds_value h2 c6, holds_value h2 c7, holds_value h2 c8, vel_unique hh (velocity_vel hh u0 (s0 - b0)) hv0,
                      vel_unique hh (velocity_vel hh u1 (s1 - b1)) hv1, vel_unique hh (velocity_vel hh u2 (s2 - b2)) hv2, hv']
              cases ex with
              | false =>
                simp only [Bool.false_eq_true, if_false, Option.some.injEq] at h key
                subst h
                refine ⟨fun p v hpv => ?_, fun p v hpv => ?_⟩
                · obtain ⟨a, b⟩ := key _ _ h3 (by decide) p v hpv
                  exact ⟨a, by simp only; rw [← b, ← a]⟩
                · obtain ⟨a, b⟩ := key _ _ h4 (by decide) p v hpv
                  exact ⟨a, by simp only; rw [← b, ← a]⟩
              | true =>
                simp only [if_true, Option.some.injEq] at h key
                subst h
                refine ⟨fun p v hpv => ?_, fun p v hpv => ?_⟩
                · obtain ⟨a, b⟩ := key _ _ h3 (by decide) p v hpv
                  exact ⟨by simp only; rw [a, b], a⟩
                · obtain ⟨a, b⟩ := key _ _ h4 (by decide) p v hpv
                  exact ⟨by simp only; rw [a, b], a⟩

/-- What a call that answers has found. -/
theorem getCentroids_some {sq : K → K} {f : Sww K} {ex : Bool} {hmin : K} {s : Slices} {o : Out K} (h : getCentroids sq f ex hmin s = some o) :
    ∃ st el q, centVar f "stage" = some st ∧ centVar f "elevation" = some el ∧ (∀ i ∈ (s.inds f.time.length).getD [0], i < f.time.length) ∧
      flow f ex hmin ((s.inds f.time.length).getD (List.range f.time.length))
        (firstRow (getInds (s.inds f.time.length) f.time.length f.vols.length el)) = some q ∧
      o.time = times (s.inds f.time.length) f.time ∧
      o.stage = select (s.inds f.time.length) largest f.time.length f.vols.length (fun i k => st.value i k) ∧
      o.elev = .one (firstRow (getInds (s.inds f.time.length) f.time.length f.vols.length el)) ∧
      o.height = o.stage.map (fun r => (List.range f.vols.length).map fun k =>
        r.getD k 0 - (firstRow (getInds (s.inds f.time.length) f.time.length f.vols.length el)).getD k 0) ∧
      o.xmom = select (s.inds f.time.length) furthest f.time.length f.vols.length q.xm ∧
      o.ymom = select (s.inds f.time.length) furthest f.time.length f.vols.length q.ym ∧
      o.xvel = select (s.inds f.time.length) furthest f.time.length f.vols.length q.xv ∧
      o.yvel = select (s.inds f.time.length) furthest f.time.length f.vols.length q.yv ∧
      o.vel = select (s.inds f.time.length) largest f.time.length f.vols.length (fun i k => sq (q.xv i k ^ 2 + q.yv i k ^ 2)) := by
  unfold getCentroids at h
  cases h1 : centVar f "stage" with
  | none => rw [h1] at h; simp at h
  | some st =>
    cases h2 : centVar f "elevation" with
    | none => rw [h1, h2] at h; simp at h
    | some el =>
      rw [h1, h2] at h
      simp only at h
      by_cases hc : ((s.inds f.time.length).getD [0]).all (· < f.time.length) = true
      · rw [if_pos hc] at h
        cases hq : flow f ex hmin ((s.inds f.time.length).getD (List.range f.time.length))
            (firstRow (getInds (s.inds f.time.length) f.time.length f.vols.length el)) with
        | none => rw [hq] at h; simp at h
        | some q =>
          rw [hq] at h
          simp only [Option.some.injEq] at h
          subst h
          exact ⟨st, el, q, rfl, rfl, by simpa using hc, hq, rfl, rfl, rfl, rfl, rfl, rfl, rfl, rfl, rfl⟩
      · rw [if_neg hc] at h
        simp at h

theorem at_map_range {A : List (List K)} {n k c : ℕ} {a : K} (g : List K → ℕ → K) (b : K) (h : At A k c a)
    (hc : c < n) (hg : ∀ r : List K, r[c]? = some a → g r c = b) : At (A.map fun r => (List.range n).map fun k => g r k) k c b := by
  obtain ⟨r, h1, h2⟩ := h
  refine ⟨(List.range n).map fun k => g r k, by simp [h1], ?_⟩
  simp [hc, hg r h2]

/-- **C100.** Centroids at named times: row `k` holds the stage of the triangles at the `k`-th of these times (stored, or the mean of the corners);
with a bed that does not change, the bed and stage less bed as depth; momentum and velocity as described by `CentFlow`; and the length of the
velocity as speed. -/
theorem C100_centroids {sq : K → K} {f : Sww K} {ex : Bool} {hmin : K} {s : Slices} {o : Out K} (hsq : IsSqrt sq) (hh : 0 ≤ hmin)
    (h : getCentroids sq f ex hmin s = some o) {l : List ℕ} (hl : Chosen f.time.length l s) {k i c : ℕ} (hk : l[k]? = some i)
    (hc : c < f.vols.length) :
    (∃ t, f.time[i]? = some t ∧ o.time[k]? = some t) ∧ (∀ a, Cent f "stage" i c a → At o.stage k c a) ∧
    (FixedCent f → ∀ b, Cent f "elevation" i c b → Stored k c b o.elev ∧ ∀ a, Cent f "stage" i c a → At o.height k c (a - b)) ∧
    (∀ p v, CentFlow f ex hmin "xmomentum" i c p v → At o.xmom k c p ∧ At o.xvel k c v) ∧
    (∀ p v, CentFlow f ex hmin "ymomentum" i c p v → At o.ymom k c p ∧ At o.yvel k c v) ∧
    (∀ a b, At o.xvel k c a → At o.yvel k c b → ∃ w, At o.vel k c w ∧ 0 ≤ w ∧ w ^ 2 = a ^ 2 + b ^ 2) := by
  obtain ⟨st, el, q, h1, h2, hin, hq, e1, e2, e3, e4, e5, e6, e7, e8, e9⟩ := getCentroids_some h
  have hi := chosen_inds hl
  rw [hi] at hin hq e1 e2 e3 e4 e5 e6 e7 e8 e9
  simp only [select] at e2 e5 e6 e7 e8 e9
  have him : i < f.time.length := hin i (List.mem_of_getElem? hk)
  have hst : ∀ a, Cent f "stage" i c a → At o.stage k c a := by
    intro a ha
    rw [e2, ← cent_value h1 ha]
    exact at_table hk hc
  have hf := flow_spec hh hq (fun hfix i k b hb => (fixed_elev h2 hfix hb).1) i c
  refine ⟨⟨f.time[i], List.getElem?_eq_getElem him, ?_⟩, hst, ?_, ?_, ?_, ?_⟩
  · rw [e1]
    simp [times, hk, List.getD, List.getElem?_eq_getElem him]
  · intro hfix b hb
    refine ⟨by rw [e3]; exact (fixed_elev h2 hfix hb).2, fun a ha => ?_⟩
    rw [e4]
    refine at_map_range (fun r k => r.getD k 0 - (firstRow (getInds (some l) f.time.length f.vols.length el)).getD k 0) _ (hst a ha) hc fun r hr => ?_
    rw [(fixed_elev h2 hfix hb).1]
    simp [List.getD, hr]
  · intro p v hpv
    obtain ⟨a, b⟩ := hf.1 p v hpv
    rw [e5, e7, ← a, ← b]
    exact ⟨at_table hk hc, at_table hk hc⟩
  · intro p v hpv
    obtain ⟨a, b⟩ := hf.2 p v hpv
    rw [e6, e8, ← a, ← b]
    exact ⟨at_table hk hc, at_table hk hc⟩
  · intro a b ha hb
    rw [e7] at ha
    rw [e8] at hb
    have := at_unique ha (at_table hk hc)
    subst this
    have := at_unique hb (at_table hk hc)
    subst this
    have hs := hsq (q.xv i c ^ 2 + q.yv i c ^ 2) (by positivity)
    rw [e9]
    exact ⟨_, at_table hk hc, hs.1, by rw [pow_two, hs.2]⟩

/-- **C100.** Centroids, 'max': the largest stage, with a bed that does not change the largest stage less the bed, the largest speed, and the
momentum and velocity components of largest magnitude. -/
theorem C100_centroids_max {sq : K → K} {f : Sww K} {ex : Bool} {hmin : K} {o : Out K} (hsq : IsSqrt sq) (hh : 0 ≤ hmin)
    (h : getCentroids sq f ex hmin .max = some o) {c : ℕ} (hc : c < f.vols.length) (hfull : ∀ i, i < f.time.length → ∃ a, Cent f "stage" i c a) :
    (∃ v, At o.stage 0 c v ∧ Peak f.time.length (fun i => Cent f "stage" i c) v) ∧
    (FixedCent f → (∀ i, i < f.time.length → ∃ b, Cent f "elevation" i c b) →
      ∃ v, At o.height 0 c v ∧ Peak f.time.length (fun i d => ∃ a b, Cent f "stage" i c a ∧ Cent f "elevation" i c b ∧ d = a - b) v) ∧
    ((∀ i, i < f.time.length → ∀ name ∈ ["xmomentum", "ymomentum"], ∃ p v, CentFlow f ex hmin name i c p v) →
      (∃ v, At o.xmom 0 c v ∧ Swing f.time.length (fun i p => ∃ v, CentFlow f ex hmin "xmomentum" i c p v) v) ∧
      (∃ v, At o.ymom 0 c v ∧ Swing f.time.length (fun i p => ∃ v, CentFlow f ex hmin "ymomentum" i c p v) v) ∧
      (∃ v, At o.xvel 0 c v ∧ Swing f.time.length (fun i v => ∃ p, CentFlow f ex hmin "xmomentum" i c p v) v) ∧
      (∃ v, At o.yvel 0 c v ∧ Swing f.time.length (fun i v => ∃ p, CentFlow f ex hmin "ymomentum" i c p v) v) ∧
      (∃ v, At o.vel 0 c v ∧ Peak f.time.length (fun i w => ∃ p r a b, CentFlow f ex hmin "xmomentum" i c p a ∧
        CentFlow f ex hmin "ymomentum" i c r b ∧ 0 ≤ w ∧ w ^ 2 = a ^ 2 + b ^ 2) v)) := by
  obtain ⟨st, el, q, h1, h2, hin, hq, e1, e2, e3, e4, e5, e6, e7, e8, e9⟩ := getCentroids_some h
  have hm : 0 < f.time.length := hin 0 (by simp [Slices.inds])
  simp only [Slices.inds, Option.getD_none] at hq e1 e2 e3 e4 e5 e6 e7 e8 e9
  simp only [select] at e2 e5 e6 e7 e8 e9
  have hf := flow_spec hh hq (fun hfix i k b hb => (fixed_elev h2 hfix hb).1)
  have hst : ∃ v, At o.stage 0 c v ∧ Peak f.time.length (fun i => Cent f "stage" i c) v := by
    rw [e2]
    exact peak_of hm hc (fun i a _ ha => cent_value h1 ha) hfull
  refine ⟨hst, ?_, ?_⟩
  · intro hfix hb
    obtain ⟨v, hv, ⟨i, hi, ha⟩, hmax⟩ := hst
    obtain ⟨b, hb0⟩ := hb i hi
    have hbed : ∀ i b', Cent f "elevation" i c b' → b' = b := fun i b' hb' =>
      ((fixed_elev (inds := none) (m := 0) (n := 0) h2 hfix hb').1).symm.trans (fixed_elev h2 hfix hb0).1
    refine ⟨v - b, ?_, ⟨i, hi, v, b, ha, hb0, rfl⟩, ?_⟩
    · rw [e4]
      refine at_map_range (fun r k => r.getD k 0 - (firstRow (getInds none f.time.length f.vols.length el)).getD k 0) _ hv hc fun r hr => ?_
      rw [(fixed_elev h2 hfix hb0).1]
      simp [List.getD, hr]
    · rintro i' d hi' ⟨a, b', ha', hb', rfl⟩
      rw [hbed i' b' hb']
      exact sub_le_sub_right (hmax i' a hi' ha') b
  · intro hfl
    refine ⟨?_, ?_, ?_, ?_, ?_⟩
    · rw [e5]
      exact swing_of hm hc (fun i a _ ⟨v, hv⟩ => ((hf i c).1 a v hv).1) fun i hi => hfl i hi _ (by simp)
    · rw [e6]
      exact swing_of hm hc (fun i a _ ⟨v, hv⟩ => ((hf i c).2 a v hv).1) fun i hi => hfl i hi _ (by simp)
    · rw [e7]
      refine swing_of hm hc (fun i a _ ⟨v, hv⟩ => ((hf i c).1 v a hv).2) fun i hi => ?_
      obtain ⟨p, v, hv⟩ := hfl i hi "xmomentum" (by simp)
      exact ⟨v, p, hv⟩
    · rw [e8]
      refine swing_of hm hc (fun i a _ ⟨v, hv⟩ => ((hf i c).2 v a hv).2) fun i hi => ?_
      obtain ⟨p, v, hv⟩ := hfl i hi "ymomentum" (by simp)
      exact ⟨v, p, hv⟩
    · rw [e9]
      refine peak_of hm hc ?_ fun i hi => ?_
      · rintro i w - ⟨p, r, a, b, ha, hb, hw, hw'⟩
        rw [((hf i c).1 p a ha).2, ((hf i c).2 r b hb).2, ← hw']
        have hs := hsq (w ^ 2) (by positivity)
        exact (pow_left_inj₀ hs.1 hw two_ne_zero).mp (by rw [pow_two, hs.2])
      · obtain ⟨p, a, ha⟩ := hfl i hi "xmomentum" (by simp)
        obtain ⟨r, b, hb⟩ := hfl i hi "ymomentum" (by simp)
        have hs := hsq (a ^ 2 + b ^ 2) (by positivity)
        exact ⟨_, p, r, a, b, ha, hb, hs.1, by rw [pow_two, hs.2]⟩

end Verif.PlotU
