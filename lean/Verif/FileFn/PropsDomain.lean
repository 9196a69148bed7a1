import Verif.FileFn.Props

/-! # C97: series without space, the clock of the domain, and boundaries read from files -/

namespace Verif.FileFn

set_option linter.unusedSectionVars false

open Verif.Polygon (Pt shift IsSqrt isInsidePolygon)
open Verif.Interp (LineThrough StrictlyIncreasing Mesh thin monotone thin_get isChain_increasing)
open Verif.Quad (Tri Covers Almost)

variable {K : Type*} [Field K] [LinearOrder K] [IsStrictOrderedRing K]

variable {mk : List (Pt K) → List (ℕ × ℕ × ℕ) → Option (Mesh K)} {f : File K} {names : List String} {x : List (Pt K)} {T : List K}
  {vals : List (Var K)} {m : Mesh K} {ts : List (Tri K)}

/-- The slot of a call in absolute times. -/
theorem slot_abs (hT : StrictlyIncreasing T) (n : ℕ) (hn : 0 < n) (limit d : Option K) (idx : List ℕ) (hk : Kept T f.starttime n limit idx)
    (hne : idx ≠ []) (F : Fn K) (htime : F.time = thin n (fnTimes T f.starttime limit d)) (hi : F.index < F.time.length) (p : Option ℕ)
    (hp : F.answers p) (t : K) :
    ((∀ i ∈ idx, t + origin f d < T.getD i 0 + f.starttime) → F.call t p = .error .early) ∧
    ((∀ i ∈ idx, T.getD i 0 + f.starttime < t + origin f d) → F.call t p = .error .late) ∧
    (Covered f T idx (t + origin f d) → ∃ j, j < idx.length ∧
      (((absTimes T f.starttime idx)[j]? = some (t + origin f d) ∧ ∀ q0, F.pre.at p j = some q0 → F.call t p = .ok ({ F with index := j }, q0)) ∨
        ∃ a b, (absTimes T f.starttime idx)[j]? = some a ∧ (absTimes T f.starttime idx)[j + 1]? = some b ∧ a < t + origin f d ∧ t + origin f d < b ∧
          ∀ q0 q1, F.pre.at p j = some q0 → F.pre.at p (j + 1) = some q1 →
            F.call t p = .ok ({ F with index := j }, List.zipWith (mix ((t + origin f d - a) / (b - a))) q0 q1))) := by
  have hidx := kept_eq (d := d) hT n hn limit idx hk
  rw [htime] at hi
  set tt := thin n (fnTimes T f.starttime limit d) with htt
  have hlen : idx.length = tt.length := by
    conv_lhs => rw [hidx]
    simp
  have hlen0 : 0 < tt.length := by rw [← hlen]; exact List.length_pos_of_ne_nil hne
  have hget : ∀ (k : ℕ) (s : K), tt[k]? = some s → idx[k]? = some (k * n) ∧ T.getD (k * n) 0 + f.starttime = s + origin f d := by
    intro k s h
    have hkl := (List.getElem?_eq_some_iff.1 h).1
    refine ⟨by rw [hidx, List.getElem?_map, List.getElem?_range hkl]; rfl, ?_⟩
    rw [htt, thin_get _ hn, fnTimes_get hT] at h
    rw [List.getD_eq_getElem?_getD, h.1, Option.getD_some]
    ring
  have hidx_get : ∀ (k i : ℕ), idx[k]? = some i → i = k * n ∧ k < tt.length := by
    intro k i h
    have hkl : k < tt.length := by rw [← hlen]; exact (List.getElem?_eq_some_iff.1 h).1
    rw [hidx, List.getElem?_map, List.getElem?_range hkl] at h
    exact ⟨(Option.some.inj h).symm, hkl⟩
  have hincr : Verif.Interp.Increasing tt := by
    intro i j a b hij ha hb
    rw [htt, thin_get _ hn] at ha hb
    exact (fnTimes_increasing hT limit d).le _ _ a b (Nat.mul_le_mul_right _ hij) ha hb
  have habs : ∀ (k : ℕ) (u : K), tt[k]? = some u → (absTimes T f.starttime idx)[k]? = some (u + origin f d) := by
    intro k u hu
    obtain ⟨q1, q2⟩ := hget k u hu
    unfold absTimes
    rw [List.getElem?_map, q1, Option.map_some, q2]
  have hmemfirst : ∀ i ∈ idx, tt[0] + origin f d ≤ T.getD i 0 + f.starttime := by
    intro i hi
    obtain ⟨k, hk'⟩ := List.getElem?_of_mem hi
    obtain ⟨rfl, hkl⟩ := hidx_get k i hk'
    have h1 : tt[k]? = some tt[k] := List.getElem?_eq_getElem hkl
    rw [(hget k _ h1).2]
    have := hincr 0 k _ _ (by omega) (List.getElem?_eq_getElem hlen0) h1
    linarith
  have hmemlast : ∀ i ∈ idx, T.getD i 0 + f.starttime ≤ (tt[tt.length - 1]'(by omega)) + origin f d := by
    intro i hi
    obtain ⟨k, hk'⟩ := List.getElem?_of_mem hi
    obtain ⟨rfl, hkl⟩ := hidx_get k i hk'
    have h1 : tt[k]? = some tt[k] := List.getElem?_eq_getElem hkl
    rw [(hget k _ h1).2]
    have := hincr k (tt.length - 1) _ _ (by omega) h1 (List.getElem?_eq_getElem (by omega))
    linarith
  obtain ⟨s1, s2, s3⟩ := call_slot F (by rw [htime]; exact hi) p hp tt[0] (tt[tt.length - 1]'(by omega))
    (by rw [htime, List.head?_eq_getElem?, List.getElem?_eq_getElem hlen0])
    (by rw [htime, List.getLast?_eq_getElem?, List.getElem?_eq_getElem (by omega)]) t
  have h0 := hget 0 _ (List.getElem?_eq_getElem hlen0)
  have h1 := hget (tt.length - 1) _ (List.getElem?_eq_getElem (by omega))
  refine ⟨fun h => s1 ?_, fun h => s2 ?_ ?_, fun hc => ?_⟩
  · have := h _ (List.mem_of_getElem? h0.1)
    rw [h0.2] at this
    linarith
  · have := h _ (List.mem_of_getElem? h0.1)
    rw [h0.2] at this
    linarith
  · have := h _ (List.mem_of_getElem? h1.1)
    rw [h1.2] at this
    linarith
  · obtain ⟨⟨i, hi1, hi2⟩, i', hi1', hi2'⟩ := hc
    have g1 := hmemfirst i hi1
    have g2 := hmemlast i' hi1'
    obtain ⟨j, hj, hcase⟩ := s3 (by linarith) (by linarith)
    rw [htime] at hj
    refine ⟨j, by rw [hlen]; exact hj, ?_⟩
    rcases hcase with ⟨c1, c2⟩ | ⟨a, b, c1, c2, c3, c4, c5⟩
    · rw [htime] at c1
      exact Or.inl ⟨habs j t c1, c2⟩
    · rw [htime] at c1 c2
      refine Or.inr ⟨a + origin f d, b + origin f d, habs j a c1, habs (j + 1) b c2, by linarith, by linarith, fun q0 q1 k0 k1 => ?_⟩
      rw [c5 q0 q1 k0 k1, show t + origin f d - (a + origin f d) = t - a by ring, show b + origin f d - (a + origin f d) = b - a by ring]

/-! ## Series without space -/

theorem raw_at (vals : List (Var K)) (i : ℕ) (h : ∀ v ∈ vals, ∃ l, v = .one l ∧ i < l.length) (p : Option ℕ) :
    (Pre.raw false (vals.map (Var.thin 1))).at p i = some (vals.map fun v => .num (v.value i i)) := by
  unfold Pre.at
  simp only
  induction vals with
  | nil => rfl
  | cons v vs ih =>
    obtain ⟨l, rfl, hl⟩ := h v (by simp)
    rw [List.map_cons, List.mapM_cons, ih fun w hw => h w (by simp [hw])]
    have e : rawAt i (Var.thin 1 (.one l)) = some (l.getD i 0) := by
      show l[i]? = _
      rw [List.getD_eq_getElem?_getD, List.getElem?_eq_getElem hl]
      rfl
    rw [e]
    rfl

/-- **C97.** A file of time series (`.tms`), not thinned: at every absolute time that it covers the values lie on the polygonal lines through the
stored ones, whatever point is passed and whatever was called before; other times are refused. -/
theorem C97_series (hext : f.ext = .tms) (hc : f.coords = none) (ht : f.time = some T) (hT : StrictlyIncreasing T) (hnm : names ≠ [])
    (hv : names.mapM f.vars = some vals) (hone : ∀ v ∈ vals, ∃ l, v = .one l ∧ T.length ≤ l.length) (sq : K → K) (d : Option K) (o : Opts K)
    (hrel : o.relative = true) (hn : o.thinning = 1) (idx : List ℕ) (hk : Kept T f.starttime 1 o.limit idx) (hne : idx ≠ []) :
    ∃ F, open' sq mk f names d o = .ok F ∧ F.starttime = f.starttime ∧ ∀ (hist : List (K × Option ℕ)) (p : Option ℕ) (t : K),
      ((∀ i ∈ idx, t + origin f d < T.getD i 0 + f.starttime) → (F.after hist).call t p = .error .early) ∧
      ((∀ i ∈ idx, T.getD i 0 + f.starttime < t + origin f d) → (F.after hist).call t p = .error .late) ∧
      (Covered f T idx (t + origin f d) → ∃ q : List K, ((F.after hist).call t p).map Prod.snd = .ok (q.map .num) ∧ q.length = names.length ∧
        ∀ (n : ℕ) (name : String), names[n]? = some name → ∃ l z, f.vars name = some (.one l) ∧ q[n]? = some z ∧
          LineThrough (absTimes T f.starttime idx) (idx.map fun i => l.getD i 0) (t + origin f d) z) := by
  obtain ⟨i0, hi0⟩ := List.exists_mem_of_ne_nil idx hne
  obtain ⟨t0, h1, -, h3⟩ := (hk.mem i0).1 hi0
  have hT0 : T ≠ [] := by rintro rfl; simp at h1
  have hcut : limited f.starttime o.limit T ≠ [] := by
    intro h
    have := (cut_get hT f.starttime o.limit i0 t0).2 ⟨h1, h3⟩
    rw [h] at this
    simp at this
  have hmono : monotone (fnTimes T f.starttime o.limit d) = true := by
    unfold monotone
    rw [decide_eq_true_eq, isChain_increasing]
    exact fun i a b ha hb => (fnTimes_increasing hT o.limit d i (i + 1) a b (by omega) ha hb).le
  have hidx := kept_eq (d := d) hT 1 (by omega) o.limit idx hk
  have hlen : idx.length = (thin 1 (fnTimes T f.starttime o.limit d)).length := by
    conv_lhs => rw [hidx]
    simp
  have hidx' : ∀ k < idx.length, idx[k]? = some k := by
    intro k hkl
    rw [hidx, List.getElem?_map, List.getElem?_range (by omega)]
    simp
  have hin : ∀ k < idx.length, k < T.length := by
    intro k hkl
    obtain ⟨t, ht1, -⟩ := (hk.mem k).1 (List.mem_of_getElem? (hidx' k hkl))
    exact (List.getElem?_eq_some_iff.1 ht1).1
  set F : Fn K := ⟨thin 1 (fnTimes T f.starttime o.limit d), 0, .raw false (vals.map (Var.thin 1)), f.starttime⟩ with hF
  have hop : open' sq mk f names d o = .ok F := by
    unfold open'
    rw [if_neg hnm, ht, hv]
    simp only
    rw [hext, hc]
    simp only [hrel, if_true]
    rw [if_neg (by simp), if_neg (by simp), if_neg hT0, if_neg hcut, hn]
    have : movedBack f.starttime d (limited f.starttime o.limit T) = fnTimes T f.starttime o.limit d := rfl
    rw [this]
    unfold Fn.make
    rw [if_neg (by rw [hmono]; simp)]
    rfl
  refine ⟨F, hop, rfl, fun hist p t => ?_⟩
  have hlen0 : 0 < F.time.length := by
    show 0 < (thin 1 (fnTimes T f.starttime o.limit d)).length
    rw [← hlen]; exact List.length_pos_of_ne_nil hne
  obtain ⟨i, e, hi⟩ := after_keeps hist F hlen0
  obtain ⟨s1, s2, s3⟩ := slot_abs (f := f) hT 1 (by omega) o.limit d idx hk hne (F.after hist) (by rw [e]) (by rw [e]; exact hi) p
    (by rw [e]; exact trivial) t
  refine ⟨s1, s2, fun hcov => ?_⟩
  obtain ⟨j, hj, hcase⟩ := s3 hcov
  have hpre : (F.after hist).pre = .raw false (vals.map (Var.thin 1)) := by rw [e]
  rw [hpre] at hcase
  have hrow : ∀ k < idx.length, (Pre.raw false (vals.map (Var.thin 1))).at p k = some (vals.map fun v => .num (v.value k k)) := by
    intro k hkl
    refine raw_at vals k (fun v hv' => ?_) p
    obtain ⟨l, rfl, hl⟩ := hone v hv'
    exact ⟨l, rfl, lt_of_lt_of_le (hin k hkl) hl⟩
  obtain ⟨hnl, hnv⟩ := mapM_get hv
  have hVk : ∀ (l : List K) (k : ℕ), k < idx.length → (idx.map fun i => l.getD i 0)[k]? = some (l.getD k 0) := by
    intro l k hkl
    rw [List.getElem?_map, hidx' k hkl]
    rfl
  rcases hcase with ⟨c1, c2⟩ | ⟨a, b, c1, c2, c3, c4, c5⟩
  · refine ⟨vals.map fun v => v.value j j, ?_, by simp [hnl], fun n name hnm' => ?_⟩
    · rw [c2 _ (hrow j hj)]
      simp [Except.map]
    · obtain ⟨v, hv1, hv2⟩ := hnv n name hnm'
      obtain ⟨l, rfl, -⟩ := hone v (List.mem_of_getElem? hv1)
      exact ⟨l, l.getD j 0, hv2, by rw [List.getElem?_map, hv1]; rfl, Or.inl ⟨j, c1, hVk l j hj⟩⟩
  · have hj1 : j + 1 < idx.length := by
      have := (List.getElem?_eq_some_iff.1 c2).1
      unfold absTimes at this
      simpa using this
    refine ⟨vals.map fun v => v.value j j + (t + origin f d - a) / (b - a) * (v.value (j + 1) (j + 1) - v.value j j), ?_, by simp [hnl],
      fun n name hnm' => ?_⟩
    · rw [c5 _ _ (hrow j hj) (hrow (j + 1) hj1), List.zipWith_map, List.zipWith_self]
      simp [Except.map, mix]
    · obtain ⟨v, hv1, hv2⟩ := hnv n name hnm'
      obtain ⟨l, rfl, -⟩ := hone v (List.mem_of_getElem? hv1)
      refine ⟨l, _, hv2, by rw [List.getElem?_map, hv1]; rfl, Or.inr ⟨j, a, b, _, _, c1, c2, hVk l j hj, hVk l (j + 1) hj1, c3, c4, ?_⟩⟩
      have hne' : b - a ≠ 0 := by linarith
      show (l.getD j 0 + (t + origin f d - a) / (b - a) * (l.getD (j + 1) 0 - l.getD j 0) - l.getD j 0) * (b - a) = _
      rw [add_sub_cancel_left, mul_right_comm, div_mul_cancel₀ _ hne']
      ring

/-! ## The clock of a domain -/

/-- **C97.** With a domain, the function counts its times from the start of the domain as it is afterwards: that is the later one of the starts of
domain and file. A domain that starts before the file is moved to the start of the file (its time is then the start), unless it has been evolved
already, which is an error; any other domain is left as it is. -/
theorem C97_clock (sq : K → K) (c : Clock K) (o : Opts K) (F : Fn K) (hx : f.ext = .sww ∨ f.ext = .tms ∨ f.ext = .sts)
    (ho : open' sq mk f names (some c.start) o = .ok F) :
    (c.start < f.starttime → c.evolved = true → fileFunction sq mk f (some c) (some names) o = .error .evolved) ∧
    (¬ (c.start < f.starttime ∧ c.evolved = true) → ∃ c', fileFunction sq mk f (some c) (some names) o = .ok (F, some c') ∧
      c'.start = origin f (some c.start) ∧ (f.starttime ≤ c.start → c' = c) ∧ (c.start < f.starttime → c'.now = f.starttime)) := by
  have hext : ¬ (f.ext = .csv ∨ f.ext = .other) := by rcases hx with h | h | h <;> rw [h] <;> simp
  unfold fileFunction
  rw [if_neg hext]
  simp only [Option.getD_some, Option.map_some, ho]
  refine ⟨fun h1 h2 => ?_, fun h => ?_⟩
  · rw [if_pos h1]
    unfold Clock.setStart
    rw [if_pos h2]
  · by_cases h1 : f.starttime > c.start
    · have h2 : c.evolved = false := by
        cases hc : c.evolved
        · rfl
        · exact absurd ⟨h1, hc⟩ h
      rw [if_pos h1]
      unfold Clock.setStart
      rw [if_neg (by rw [h2]; simp)]
      exact ⟨_, rfl, (max_eq_right h1.le).symm, fun h3 => absurd h1 (not_lt.2 h3), fun _ => by unfold Clock.now; simp⟩
    · rw [if_neg h1]
      exact ⟨c, rfl, (max_eq_left (not_lt.1 h1)).symm, fun _ => rfl, fun h3 => absurd h3 h1⟩

/-! ## Boundaries -/

/-- **C97.** A boundary read from a file: at an edge whose midpoint lies in the mesh of the file it imposes the values that the file holds there
at the time "model time plus start of the domain". For a domain that starts at time zero this is the model time; for any other it is not (see
`C97_boundary_late`). Edges off the mesh raise an exception, as do times before those of the file; after the last one the default boundary, if
any, is used. -/
theorem C97_boundary (hr : Reads mk f names x T vals m ts) (sq : K → K) (hs : IsSqrt sq) (c : Clock K) (he : c.evolved = false)
    (mid : List (Pt K)) (hmid : mid ≠ []) (n : ℕ) (hn : 0 < n) (limit : Option K) (idx : List ℕ) (hk : Kept T f.starttime n limit idx)
    (hcov : Covered f T idx (origin f (some c.start)))
    (hall : ∀ P ∈ mid, (isInsidePolygon sq true (relTo f.corner P) m.boundary = some true ∧ ∃ s ∈ ts, Covers (moved f.corner s) P) ∨
      isInsidePolygon sq true (relTo f.corner P) m.boundary ≠ some true ∨ ∀ s ∈ ts, ¬ Almost (moved f.corner s) P) :
    ∃ F c', fileBoundary sq mk f c names mid n limit = .ok (F, c') ∧ c'.start = origin f (some c.start) ∧
      ∀ (i : ℕ) (P : Pt K), mid[i]? = some P → ∀ hist : List (K × Option ℕ),
      (isInsidePolygon sq true (relTo f.corner P) m.boundary = some true → (∃ s ∈ ts, Covers (moved f.corner s) P) → ∃ abc, Around f x abc P ∧
        ∀ (rel : K) (other : Option (List (Cell K))), Covered f T idx (({ c' with rel := rel } : Clock K).now + c'.start) → ∃ q : List K,
          (evaluate (F.after hist) { c' with rel := rel } i other).map Prod.snd = .ok (q.map .num) ∧
          Shows f x T names false idx abc P (({ c' with rel := rel } : Clock K).now + c'.start) q) ∧
      ((isInsidePolygon sq true (relTo f.corner P) m.boundary ≠ some true ∨ ∀ s ∈ ts, ¬ Almost (moved f.corner s) P) →
        ∀ (rel : K) (other : Option (List (Cell K))), Covered f T idx (({ c' with rel := rel } : Clock K).now + c'.start) →
          evaluate (F.after hist) { c' with rel := rel } i other = .error .nan) ∧
      ∀ (rel : K) (other : Option (List (Cell K))),
        ((∀ i ∈ idx, ({ c' with rel := rel } : Clock K).now + c'.start < T.getD i 0 + f.starttime) →
          evaluate (F.after hist) { c' with rel := rel } i other = .error .early) ∧
        ((∀ i ∈ idx, T.getD i 0 + f.starttime < ({ c' with rel := rel } : Clock K).now + c'.start) →
          (evaluate (F.after hist) { c' with rel := rel } i other).map Prod.snd =
            match other with
            | none => .error .late
            | some r => if Cell.inf ∈ r then .error .nan else .ok r) := by
  have hne : idx ≠ [] := by
    rintro rfl
    obtain ⟨⟨i, hi, -⟩, -⟩ := hcov
    simp at hi
  obtain ⟨F, hop, -, hF⟩ := C97_value hr sq hs (some c.start) { points := some mid, thinning := n, limit := limit } mid rfl rfl hn idx hk hne
  obtain ⟨c', hff, hst, -, -⟩ := (C97_clock sq c { points := some mid, thinning := n, limit := limit } F (Or.inl hr.ext) hop).2 (by simp [he])
  rw [← hst] at hF hcov
  cases hmid0 : mid with
  | nil => exact absurd hmid0 hmid
  | cons P0 mid' =>
  rw [← hmid0]
  have hP0 : mid[0]? = some P0 := by rw [hmid0]; rfl
  have hcov0 : Covered f T idx (0 + c'.start) := by rw [zero_add]; exact hcov
  -- the trial call
  have htry : ∃ q, (F.call 0 (some 0)).map Prod.snd = .ok q ∧ q.length = names.length := by
    obtain ⟨-, h1, h2⟩ := hF 0 P0 hP0
    rcases hall P0 (by rw [hmid0]; simp) with ⟨h3, h4⟩ | h3
    · obtain ⟨abc, -, h5⟩ := h1 h3 h4
      obtain ⟨q, h6, h7⟩ := h5 [] 0 hcov0
      exact ⟨_, h6, by simpa using h7.1⟩
    · exact ⟨_, h2 h3 [] 0 hcov0, by simp⟩
  obtain ⟨q0, hq0, hql⟩ := htry
  cases hcall : F.call 0 (some 0) with
  | error e => rw [hcall] at hq0; simp [Except.map] at hq0
  | ok r =>
  obtain ⟨G, q1⟩ := r
  rw [hcall] at hq0
  obtain rfl : q1 = q0 := by simpa [Except.map] using hq0
  have hG : ∀ hist, G.after hist = F.after ((0, some 0) :: hist) := by
    intro hist
    rw [Fn.after, hcall]
  refine ⟨G, c', ?_, hst, fun i P hP hist => ⟨fun hin hc => ?_, fun hout rel other hcv => ?_, fun rel other => ⟨fun h => ?_, fun h => ?_⟩⟩⟩
  · unfold fileBoundary
    rw [hff]
    simp only [hcall]
    rw [if_pos hql]
  · obtain ⟨abc, h1, h2⟩ := (hF i P hP).2.1 hin hc
    refine ⟨abc, h1, fun rel other hcv => ?_⟩
    obtain ⟨q, h3, h4⟩ := h2 ((0, some 0) :: hist) _ hcv
    refine ⟨q, ?_, h4⟩
    rw [← hG] at h3
    unfold evaluate
    cases hcl : (G.after hist).call ({ c' with rel := rel } : Clock K).now (some i) with
    | error e => rw [hcl] at h3; simp [Except.map] at h3
    | ok r =>
      obtain ⟨H, q2⟩ := r
      rw [hcl] at h3
      obtain rfl : q2 = q.map .num := by simpa [Except.map] using h3
      simp only
      rw [if_neg (by simp)]
      rfl
  · have h3 := (hF i P hP).2.2 hout ((0, some 0) :: hist) _ hcv
    rw [← hG] at h3
    unfold evaluate
    cases hcl : (G.after hist).call ({ c' with rel := rel } : Clock K).now (some i) with
    | error e => rw [hcl] at h3; simp [Except.map] at h3
    | ok r =>
      obtain ⟨H, q2⟩ := r
      rw [hcl] at h3
      obtain rfl : q2 = names.map fun _ => .inf := by simpa [Except.map] using h3
      simp only
      rw [if_pos]
      rw [List.mem_map]
      obtain ⟨nm, hnm⟩ := List.exists_mem_of_ne_nil names hr.some_names
      exact ⟨nm, hnm, rfl⟩
  · have h3 := ((hF i P hP).1 ((0, some 0) :: hist) _).1 h
    rw [← hG] at h3
    unfold evaluate
    rw [h3]
  · have h3 := ((hF i P hP).1 ((0, some 0) :: hist) _).2 h
    rw [← hG] at h3
    unfold evaluate
    rw [h3]
    cases other with
    | none => rfl
    | some r =>
      simp only
      split_ifs <;> rfl

end Verif.FileFn
