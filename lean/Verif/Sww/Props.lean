import Verif.Sww.Lemmas

/-! C86: what a run leaves in its output file. -/

set_option linter.unusedSectionVars false

namespace Verif.Sww

variable {K : Type*} [Field K] [LinearOrder K] [IsStrictOrderedRing K]

theorem storeAll_spec (W : Writer K) (hr : Rounding W.rnd) (hd : W.dynamic.Nodup) (hc : W.dynamicC.Nodup)
    (hst : "stage" ∈ W.dynamic) (N M : ℕ) (hN : 0 < N) :
    ∀ (calls : List (K × State K)) (f : File K), Even W f → (calls.map (·.1)).Pairwise (· < ·) →
      (∀ c ∈ calls, Sized N M c.2) → (∀ c ∈ calls, ∀ s ∈ f.times, s < c.1) →
      ∃ g, storeAll W calls f = some g ∧ g.starttime = f.starttime ∧ g.times = f.times ++ calls.map (·.1) ∧ Even W g ∧
        (∀ n ∈ W.dynamic, ∃ new, (g.dyn n).rows = (f.dyn n).rows ++ new ∧
          List.Forall₂ (fun c row => Shows W.rnd W.minHeight n c.2 row) calls new) ∧
        ∀ n ∈ W.dynamicC, g.dynC n = f.dynC n ++ calls.map (fun c => (c.2.cent n).map W.rnd) := by
  intro calls
  induction calls with
  | nil =>
    intro f hf _ _ _
    exact ⟨f, rfl, rfl, by simp, hf, fun n _ => ⟨[], by simp, .nil⟩, by simp⟩
  | cons c cs ih =>
    intro f hf hinc hsz hlt
    have hslot := slot_append W.tiny f.times c.1 (hlt c (by simp))
    obtain ⟨g, hg, hgs, hgt, hgd, hgc⟩ :=
      storeTimestep_slot W hd hc N M hN c.2 (hsz c (by simp)) c.1 f _ hslot
    rw [writeAt_length] at hgt
    have hrows : ∀ n ∈ W.dynamic, (g.dyn n).rows = (f.dyn n).rows ++ [(shown W c.2 n).map W.rnd] := by
      intro n hn
      rw [writeVar_rows (hgd n hn), ← hf.1 n hn, writeAt_length]
    have hcent : ∀ n ∈ W.dynamicC, g.dynC n = f.dynC n ++ [(c.2.cent n).map W.rnd] := by
      intro n hn
      rw [hgc n hn, ← hf.2 n hn, writeAt_length]
    have heven : Even W g :=
      ⟨fun n hn => by rw [hrows n hn, hgt]; simp [hf.1 n hn], fun n hn => by rw [hcent n hn, hgt]; simp [hf.2 n hn]⟩
    rw [List.map_cons, List.pairwise_cons] at hinc
    obtain ⟨k, hk, hks, hkt, hke, hkd, hkc⟩ := ih g heven hinc.2 (fun c' hc' => hsz c' (by simp [hc']))
      (fun c' hc' s hs => by
        rw [hgt] at hs
        rcases List.mem_append.mp hs with hs | hs
        · exact hlt c' (by simp [hc']) s hs
        · rw [List.mem_singleton.mp hs]
          exact hinc.1 _ (List.mem_map_of_mem (f := (·.1)) hc'))
    refine ⟨k, ?_, by rw [hks, hgs], by rw [hkt, hgt]; simp, hke, ?_, ?_⟩
    · rw [storeAll, hg]; exact hk
    · intro n hn
      obtain ⟨new, h1, h2⟩ := hkd n hn
      refine ⟨((shown W c.2 n).map W.rnd) :: new, ?_, .cons ?_ h2⟩
      · rw [h1, hrows n hn]; simp
      · exact shown_shows W hr hst N M c.2 (hsz c (by simp)) n
    · intro n hn
      rw [hkc n hn, hcent n hn]
      simp

/-- **C86.** Storing at strictly increasing times always succeeds and leaves one slice per call, in order: the
times, for every dynamic quantity the visible values of that call's state, and for every centroid quantity
its values. -/
theorem C86_history (W : Writer K) (hr : Rounding W.rnd) (hd : W.dynamic.Nodup) (hc : W.dynamicC.Nodup)
    (hst : "stage" ∈ W.dynamic) (N M : ℕ) (hN : 0 < N) (start : K) (calls : List (K × State K))
    (hinc : (calls.map (·.1)).Pairwise (· < ·)) (hsz : ∀ c ∈ calls, Sized N M c.2) :
    ∃ g, storeAll W calls (header W start) = some g ∧ g.starttime = start ∧ g.times = calls.map (·.1) ∧
      (∀ n ∈ W.dynamic, List.Forall₂ (fun c row => Shows W.rnd W.minHeight n c.2 row) calls (g.dyn n).rows) ∧
      ∀ n ∈ W.dynamicC, g.dynC n = calls.map (fun c => (c.2.cent n).map W.rnd) := by
  obtain ⟨g, h1, h2, h3, _, h4, h5⟩ := storeAll_spec W hr hd hc hst N M hN calls (header W start)
    ⟨fun n _ => by simp [header], fun n _ => by simp [header]⟩ hinc hsz (fun c _ s hs => by simp [header] at hs)
  refine ⟨g, h1, h2, by simpa [header] using h3, ?_, ?_⟩
  · intro n hn
    obtain ⟨new, h6, h7⟩ := h4 n hn
    have : (g.dyn n).rows = new := by rw [h6]; simp [header]
    rwa [this]
  · intro n hn
    rw [h5 n hn]; simp [header]

/-- **C86.** Storing again at a time already in the file (a run restarted from a checkpoint) replaces that slice and
touches nothing else. -/
theorem C86_replace (W : Writer K) (hr : Rounding W.rnd) (hd : W.dynamic.Nodup) (hc : W.dynamicC.Nodup)
    (hst : "stage" ∈ W.dynamic) (htiny : 0 < W.tiny) (N M : ℕ) (hN : 0 < N) (s : State K) (hs : Sized N M s) (f : File K)
    (hf : Even W f) (hap : Apart W.tiny f.times) (k : ℕ) (t : K) (hk : f.times[k]? = some t) :
    ∃ g, storeTimestep W s t f = some g ∧ g.starttime = f.starttime ∧ g.times = f.times ∧
      (∀ n ∈ W.dynamic, ∃ row, Shows W.rnd W.minHeight n s row ∧ (g.dyn n).rows = (f.dyn n).rows.set k row) ∧
      ∀ n ∈ W.dynamicC, g.dynC n = (f.dynC n).set k ((s.cent n).map W.rnd) := by
  obtain ⟨hkl, hkt⟩ := List.getElem?_eq_some_iff.mp hk
  obtain ⟨g, hg, hgs, hgt, hgd, hgc⟩ :=
    storeTimestep_slot W hd hc N M hN s hs t f k (slot_same W.tiny htiny f.times hap k t hk)
  refine ⟨g, hg, hgs, ?_, ?_, ?_⟩
  · rw [hgt, writeAt_lt _ _ _ hkl, ← hkt]; simp
  · intro n hn
    refine ⟨_, shown_shows W hr hst N M s hs n, ?_⟩
    rw [writeVar_rows (hgd n hn), writeAt_lt _ _ _ (by rw [hf.1 n hn]; exact hkl)]
  · intro n hn
    rw [hgc n hn, writeAt_lt _ _ _ (by rw [hf.2 n hn]; exact hkl)]

/-- **C86.** Storing at a time not later than the last one and not in the file raises. -/
theorem C86_unknown_time (W : Writer K) (s : State K) (f : File K) (t : K)
    (hle : ∃ last, f.times.getLast? = some last ∧ t ≤ last) (hno : ∀ u ∈ f.times, W.tiny ≤ |u - t|) :
    storeTimestep W s t f = none := by
  obtain ⟨last, hl, hle⟩ := hle
  have : slot W.tiny f.times t = none := by
    unfold slot
    rw [hl]
    simp only [if_pos hle, List.findIdx?_eq_none_iff]
    intro u hu
    simpa using hno u hu
  simp [storeTimestep, storeQuantities, this]

/-- **C86.** In one slice: the stored depth is never negative; where the water is shallower than the threshold it is
exactly zero and so are the momenta; elsewhere stage and momenta are the model's, rounded. -/
theorem C86_depth (rnd : K → K) (hr : Rounding rnd) (h : K) (hh : 0 ≤ h) (s : State K) (stage xmom ymom elev : List K)
    (hw : Shows rnd h "stage" s stage) (hx : Shows rnd h "xmomentum" s xmom) (hy : Shows rnd h "ymomentum" s ymom)
    (he : elev = (s.vert "elevation").map rnd) (i : ℕ) (w z u v : K) (hwi : (s.vert "stage")[i]? = some w)
    (hzi : (s.vert "elevation")[i]? = some z) (hui : (s.vert "xmomentum")[i]? = some u)
    (hvi : (s.vert "ymomentum")[i]? = some v) :
    ∃ sw sz, stage[i]? = some sw ∧ elev[i]? = some sz ∧ sz ≤ sw ∧
      (w - z < h → sw = sz ∧ xmom[i]? = some 0 ∧ ymom[i]? = some 0) ∧
      (h ≤ w - z → sw = rnd w ∧ xmom[i]? = some (rnd u) ∧ ymom[i]? = some (rnd v)) := by
  have h1 := hw.2 i w z w hwi hzi hwi
  have h2 := hx.2 i w z u hwi hzi hui
  have h3 := hy.2 i w z v hwi hzi hvi
  have h4 : elev[i]? = some (rnd z) := by rw [he]; simp [hzi]
  by_cases hd : h ≤ w - z
  · simp only [visible, hd, if_true] at h1 h2 h3
    exact ⟨_, _, h1, h4, hr.mono (by linarith), fun h' => absurd hd (not_le.mpr h'), fun _ => ⟨rfl, h2, h3⟩⟩
  · have hx0 : xmom[i]? = some 0 := by rw [h2]; simp [visible, hd, hr.zero]
    have hy0 : ymom[i]? = some 0 := by rw [h3]; simp [visible, hd, hr.zero]
    refine ⟨_, _, h1, h4, ?_, fun _ => ⟨?_, hx0, hy0⟩, fun h' => absurd h' hd⟩
    · simp [visible, hd]
    · simp [visible, hd]

theorem writeVar_bounds {rnd : K → K} (hr : Rounding rnd) {i : ℕ} {q : List K} {v u : Var K}
    (h : writeVar rnd i q v = some u) (hlo : rnd v.lo = v.lo) (hhi : rnd v.hi = v.hi)
    (hs : ∀ row ∈ v.rows, ∀ x ∈ row, rnd x = x) (hb : Bounds v.rows v.lo v.hi) :
    rnd u.lo = u.lo ∧ rnd u.hi = u.hi ∧ (∀ row ∈ u.rows, ∀ x ∈ row, rnd x = x) ∧ Bounds u.rows u.lo u.hi := by
  have hq : q ≠ [] := by
    rintro rfl
    simp [writeVar] at h
  obtain ⟨a, b, ha, hb', hw⟩ := writeVar_ok rnd i q v hq
  rw [hw] at h
  have hu := Option.some.inj h
  subst hu
  have hmin : ∀ x ∈ q, a ≤ x := (List.min?_eq_some_iff.mp ha).2
  have hmax : ∀ x ∈ q, x ≤ b := (List.max?_eq_some_iff.mp hb').2
  refine ⟨?_, ?_, ?_, ?_⟩
  · simp only; split_ifs
    · exact hr.idem a
    · exact hlo
  · simp only; split_ifs
    · exact hr.idem b
    · exact hhi
  · intro row hrow x hx
    rcases mem_writeAt hrow with h1 | h1
    · exact hs row h1 x hx
    · rw [h1] at hx
      obtain ⟨y, _, rfl⟩ := List.mem_map.mp hx
      exact hr.idem y
  · intro row hrow x hx
    simp only
    rcases mem_writeAt hrow with h1 | h1
    · obtain ⟨h2, h3⟩ := hb row h1 x hx
      have hxx := hs row h1 x hx
      constructor
      · split_ifs with hc
        · rw [← hxx]; exact hr.mono (le_trans hc.le h2)
        · exact h2
      · split_ifs with hc
        · rw [← hxx]; exact hr.mono (le_trans h3 hc.le)
        · exact h3
    · rw [h1] at hx
      obtain ⟨y, hy, rfl⟩ := List.mem_map.mp hx
      constructor
      · split_ifs with hc
        · exact hr.mono (hmin y hy)
        · rw [← hlo]; exact hr.mono (le_trans (not_lt.mp hc) (hmin y hy))
      · split_ifs with hc
        · exact hr.mono (hmax y hy)
        · rw [← hhi]; exact hr.mono (le_trans (hmax y hy) (not_lt.mp hc))

theorem storeTimestep_vars {W : Writer K} (hd : W.dynamic.Nodup) {s : State K} {t : K} {f g : File K}
    (h : storeTimestep W s t f = some g) :
    ∃ i, slot W.tiny f.times t = some i ∧ g.times = writeAt f.times i t ∧
      ∀ n ∈ W.dynamic, writeVar W.rnd i (shown W s n) (f.dyn n) = some (g.dyn n) := by
  unfold storeTimestep storeQuantities at h
  rcases hi : slot W.tiny f.times t with _ | i
  · simp [hi] at h
  rcases hw : writeAll W.rnd i (shown W s) W.dynamic f.dyn with _ | d
  · simp [hi, hw] at h
  simp only [hi, hw, Option.some.injEq] at h
  subst h
  exact ⟨i, rfl, rfl, (writeAll_spec _ _ _ _ _ _ hd hw).1⟩

/-- **C86.** After any sequence of calls that did not raise, whatever the times, the `_range` of every dynamic
quantity contains every value in the file. -/
theorem C86_range (W : Writer K) (hr : Rounding W.rnd) (hd : W.dynamic.Nodup) (start : K) (calls : List (K × State K))
    (g : File K) (hg : storeAll W calls (header W start) = some g) (n : String) (hn : n ∈ W.dynamic) :
    Bounds (g.dyn n).rows (g.dyn n).lo (g.dyn n).hi := by
  suffices H : ∀ (calls : List (K × State K)) (f : File K), storeAll W calls f = some g →
      W.rnd (f.dyn n).lo = (f.dyn n).lo → W.rnd (f.dyn n).hi = (f.dyn n).hi →
      (∀ row ∈ (f.dyn n).rows, ∀ x ∈ row, W.rnd x = x) → Bounds (f.dyn n).rows (f.dyn n).lo (f.dyn n).hi →
      Bounds (g.dyn n).rows (g.dyn n).lo (g.dyn n).hi from
    H calls _ hg (by simp [header, hr.idem]) (by simp [header, hr.idem]) (by simp [header]) (by simp [header, Bounds])
  intro calls
  induction calls with
  | nil => intro f h _ _ _ hb; simp [storeAll] at h; subst h; exact hb
  | cons c cs ih =>
    intro f h h1 h2 h3 h4
    rw [storeAll] at h
    rcases hk : storeTimestep W c.2 c.1 f with _ | k
    · simp [hk] at h
    · simp only [hk] at h
      obtain ⟨i, _, _, hv⟩ := storeTimestep_vars hd hk
      obtain ⟨a1, a2, a3, a4⟩ := writeVar_bounds hr (hv n hn) h1 h2 h3 h4
      exact ih k h a1 a2 a3 a4

/-- **C86.** When no slice is written twice, and the values are smaller than the sentinel, the `_range` is attained. -/
theorem C86_range_exact (W : Writer K) (hr : Rounding W.rnd) (hd : W.dynamic.Nodup) (hc : W.dynamicC.Nodup)
    (N M : ℕ) (hN : 0 < N) (start : K) (calls : List (K × State K)) (hne : calls ≠ [])
    (hinc : (calls.map (·.1)).Pairwise (· < ·)) (hsz : ∀ c ∈ calls, Sized N M c.2) (n : String) (hn : n ∈ W.dynamic)
    (hsmall : ∀ c ∈ calls, ∀ x ∈ shown W c.2 n, W.rnd (-W.maxFloat) < x ∧ x < W.rnd W.maxFloat) :
    ∃ g, storeAll W calls (header W start) = some g ∧ TightBounds (g.dyn n).rows (g.dyn n).lo (g.dyn n).hi := by
  suffices H : ∀ (calls : List (K × State K)) (f : File K), Even W f → (calls.map (·.1)).Pairwise (· < ·) →
      (∀ c ∈ calls, Sized N M c.2) → (∀ c ∈ calls, ∀ s ∈ f.times, s < c.1) →
      (∀ c ∈ calls, ∀ x ∈ shown W c.2 n, W.rnd (-W.maxFloat) < x ∧ x < W.rnd W.maxFloat) →
      (((f.dyn n).lo = W.rnd W.maxFloat ∧ (f.dyn n).hi = W.rnd (-W.maxFloat) ∧ calls ≠ []) ∨
        ((∃ row ∈ (f.dyn n).rows, (f.dyn n).lo ∈ row) ∧ ∃ row ∈ (f.dyn n).rows, (f.dyn n).hi ∈ row)) →
      ∃ g, storeAll W calls f = some g ∧
        (∃ row ∈ (g.dyn n).rows, (g.dyn n).lo ∈ row) ∧ ∃ row ∈ (g.dyn n).rows, (g.dyn n).hi ∈ row by
    obtain ⟨g, h1, h2, h3⟩ := H calls (header W start) ⟨fun n _ => by simp [header], fun n _ => by simp [header]⟩ hinc hsz
      (fun c _ s hs => by simp [header] at hs) hsmall (.inl ⟨rfl, rfl, hne⟩)
    exact ⟨g, h1, C86_range W hr hd start calls g h1 n hn, h2, h3⟩
  intro calls
  induction calls with
  | nil =>
    intro f _ _ _ _ _ h
    rcases h with ⟨_, _, h⟩ | h
    · exact absurd rfl h
    · exact ⟨f, rfl, h⟩
  | cons c cs ih =>
    intro f hf hinc hsz hlt hsmall h
    have hslot := slot_append W.tiny f.times c.1 (hlt c (by simp))
    obtain ⟨g, hg, _, hgt, hgd, hgc⟩ :=
      storeTimestep_slot W hd hc N M hN c.2 (hsz c (by simp)) c.1 f _ hslot
    rw [writeAt_length] at hgt
    have hrows : ∀ n ∈ W.dynamic, (g.dyn n).rows = (f.dyn n).rows ++ [(shown W c.2 n).map W.rnd] := by
      intro n hn
      rw [writeVar_rows (hgd n hn), ← hf.1 n hn, writeAt_length]
    have heven : Even W g :=
      ⟨fun n hn => by rw [hrows n hn, hgt]; simp [hf.1 n hn], fun n hn => by
        rw [hgc n hn, hgt, ← hf.2 n hn, writeAt_length]; simp [hf.2 n hn]⟩
    rw [List.map_cons, List.pairwise_cons] at hinc
    obtain ⟨a, b, ha, hb, hw⟩ := writeVar_ok W.rnd f.times.length (shown W c.2 n) (f.dyn n)
      (shown_ne W N M hN c.2 (hsz c (by simp)) n)
    have hgn := hgd n hn
    rw [hw] at hgn
    have hgn := Option.some.inj hgn
    have ha1 : a ∈ shown W c.2 n := (List.min?_eq_some_iff.mp ha).1
    have hb1 : b ∈ shown W c.2 n := (List.max?_eq_some_iff.mp hb).1
    have hold : ∀ row ∈ (f.dyn n).rows, row ∈ (g.dyn n).rows := fun row h => by rw [hrows n hn]; simp [h]
    have hnew : (shown W c.2 n).map W.rnd ∈ (g.dyn n).rows := by rw [hrows n hn]; simp
    obtain ⟨k, hk, hk1, hk2⟩ := ih g heven hinc.2 (fun c' hc' => hsz c' (by simp [hc']))
      (fun c' hc' s hs => by
        rw [hgt] at hs
        rcases List.mem_append.mp hs with hs | hs
        · exact hlt c' (by simp [hc']) s hs
        · rw [List.mem_singleton.mp hs]
          exact hinc.1 _ (List.mem_map_of_mem (f := (·.1)) hc'))
      (fun c' hc' => hsmall c' (by simp [hc']))
      (.inr (by
        have hlo : (g.dyn n).lo = if a < (f.dyn n).lo then W.rnd a else (f.dyn n).lo := by rw [← hgn]
        have hhi : (g.dyn n).hi = if b > (f.dyn n).hi then W.rnd b else (f.dyn n).hi := by rw [← hgn]
        constructor
        · by_cases hca : a < (f.dyn n).lo
          · exact ⟨_, hnew, by rw [hlo, if_pos hca]; exact List.mem_map_of_mem ha1⟩
          · rcases h with ⟨h1, _, _⟩ | ⟨⟨row, hrow, hm⟩, _⟩
            · rw [h1] at hca
              exact absurd ((hsmall c (by simp)) a ha1).2 hca
            · exact ⟨row, hold row hrow, by rw [hlo, if_neg hca]; exact hm⟩
        · by_cases hcb : b > (f.dyn n).hi
          · exact ⟨_, hnew, by rw [hhi, if_pos hcb]; exact List.mem_map_of_mem hb1⟩
          · rcases h with ⟨_, h1, _⟩ | ⟨_, ⟨row, hrow, hm⟩⟩
            · rw [h1] at hcb
              exact absurd ((hsmall c (by simp)) b hb1).1 hcb
            · exact ⟨row, hold row hrow, by rw [hhi, if_neg hcb]; exact hm⟩))
    refine ⟨k, ?_, hk1, hk2⟩
    rw [storeAll, hg]; exact hk

/-- **C86.** Static quantities are stored rounded, with their exact range. -/
theorem C86_static (rnd : K → K) (q : List K) (hq : q ≠ []) :
    ∃ lo hi, storeStatic rnd q = some (q.map rnd, lo, hi) ∧ TightBounds [q.map rnd] lo hi := by
  have hq' : q.map rnd ≠ [] := by simpa using hq
  rcases ha : (q.map rnd).min? with _ | a
  · exact absurd (List.min?_eq_none_iff.mp ha) hq'
  rcases hb : (q.map rnd).max? with _ | b
  · exact absurd (List.max?_eq_none_iff.mp hb) hq'
  obtain ⟨h1, h2⟩ := List.min?_eq_some_iff.mp ha
  obtain ⟨h3, h4⟩ := List.max?_eq_some_iff.mp hb
  refine ⟨a, b, by simp [storeStatic, ha, hb], ?_, ⟨_, List.mem_singleton.mpr rfl, h1⟩, ⟨_, List.mem_singleton.mpr rfl, h3⟩⟩
  intro row hrow x hx
  rw [List.mem_singleton.mp hrow] at hx
  exact ⟨h2 x hx, h4 x hx⟩

/-- **C86.** When the file has grown too big the old one is left as it is and the new one holds the present step, but
under the absolute time `start + 2 * rel` instead of `start + rel`: the time since the start is counted
twice. -/
theorem C86_rollover (W : Writer K) (s : State K) (start rel : K) (f f' g : File K)
    (h : rollOver W s start rel f = some (f', g)) :
    f' = f ∧ absoluteTimes g = [start + 2 * rel] ∧ (absoluteTimes g = [start + rel] ↔ rel = 0) := by
  unfold rollOver at h
  rcases hk : storeTimestep W s rel (header W (start + rel)) with _ | k
  · simp [hk] at h
  simp only [hk, Option.some.injEq, Prod.mk.injEq] at h
  obtain ⟨rfl, rfl⟩ := h
  have hk2 : k.times = [rel] ∧ k.starttime = start + rel := by
    unfold storeTimestep storeQuantities at hk
    rcases hw : writeAll W.rnd 0 (shown W s) W.dynamic (header W (start + rel)).dyn with _ | d
    · simp [header, slot] at hk hw
      simp [hw] at hk
    · simp [header, slot] at hk hw
      simp [hw] at hk
      rw [← hk]
      simp [writeAt]
  have : absoluteTimes k = [rel + (start + rel)] := by simp [absoluteTimes, hk2.1, hk2.2]
  refine ⟨rfl, by rw [this]; congr 1; ring, ?_⟩
  rw [this]
  simp only [List.cons.injEq, and_true]
  constructor
  · intro h; linarith
  · intro h; rw [h]; ring

theorem output_count {α : Type*} (freq : ℕ) : ∀ (ts : List α) (c : ℕ), (output freq c ts).2 = c + ts.length := by
  intro ts
  induction ts with
  | nil => intro c; rfl
  | cons t ts ih => intro c; simp only [output, ih, List.length_cons]; omega

theorem output_append {α : Type*} (freq : ℕ) : ∀ (a b : List α) (c : ℕ),
    (output freq c (a ++ b)).1 = (output freq c a).1 ++ (output freq (c + a.length) b).1 := by
  intro a
  induction a with
  | nil => intro b c; rfl
  | cons t ts ih =>
    intro b c
    have e : c + (t :: ts).length = c + 1 + ts.length := by simp only [List.length_cons]; omega
    simp only [List.cons_append, output, ih, e]
    split_ifs <;> simp

theorem output_get {α : Type*} (freq : ℕ) (hf : 0 < freq) : ∀ (ts : List α) (c d k : ℕ), (c + d) % freq = 0 → d < freq →
    (output freq c ts).1[k]? = ts[d + k * freq]? := by
  intro ts
  induction ts with
  | nil => intro c d k _ _; simp [output]
  | cons t ts ih =>
    intro c d k hd hlt
    simp only [output]
    rcases Nat.eq_zero_or_pos d with h0 | h0
    · subst h0
      have hc : c % freq = 0 := by simpa using hd
      rw [if_pos hc]
      cases k with
      | zero => simp
      | succ k =>
        rw [List.getElem?_cons_succ, ih (c + 1) (freq - 1) k (by
          have : c + 1 + (freq - 1) = c + freq := by omega
          rw [this]; simpa using hc) (by omega)]
        have : 0 + (k + 1) * freq = (freq - 1 + k * freq) + 1 := by
          rw [Nat.succ_mul]; omega
        rw [this, List.getElem?_cons_succ]
    · have hc : c % freq ≠ 0 := by
        intro hc
        have : d % freq = 0 := by
          have := hd
          rw [Nat.add_mod, hc, Nat.zero_add, Nat.mod_mod] at this
          exact this
        rw [Nat.mod_eq_of_lt hlt] at this
        omega
      rw [if_neg hc, ih (c + 1) (d - 1) k (by
        have : c + 1 + (d - 1) = c + d := by omega
        rw [this]; exact hd) (by omega)]
      have : d + k * freq = (d - 1 + k * freq) + 1 := by omega
      rw [this, List.getElem?_cons_succ]

/-- **C86.** Of the moments a first run yields, every `output_frequency`-th one is stored, beginning with the
first. -/
theorem C86_every_nth {α : Type*} (freq : ℕ) (hf : 0 < freq) (ts : List α) :
    EveryNth freq ts (runs freq 0 [(ts, false)]) := by
  intro k
  simp only [runs, Bool.false_eq_true, if_false, List.append_nil]
  have := output_get freq hf ts 0 0 k (by simp) hf
  simpa using this

/-- **C86.** Runs that go to their end can be continued: any number of them store what one run over all their moments
would store. -/
theorem C86_resume {α : Type*} (freq : ℕ) (hf : 0 < freq) (parts : List (List α)) :
    EveryNth freq parts.flatten (runs freq 0 (parts.map fun ts => (ts, false))) := by
  have H : ∀ (parts : List (List α)) (c : ℕ),
      runs freq c (parts.map fun ts => (ts, false)) = (output freq c parts.flatten).1 := by
    intro parts
    induction parts with
    | nil => intro c; rfl
    | cons a rest ih =>
      intro c
      simp only [List.map_cons, runs, Bool.false_eq_true, if_false, List.flatten_cons, output_append, output_count]
      rw [ih]
  intro k
  rw [H]
  have := output_get freq hf parts.flatten 0 0 k (by simp) hf
  simpa using this

/-- **C86.** Leaving the loop with `break` does no harm when every moment is stored. -/
theorem C86_break_every {α : Type*} (a b : List α) (broke : Bool) : runs 1 0 [(a, broke), (b, false)] = a ++ b := by
  have H : ∀ (ts : List α) (c : ℕ), (output 1 c ts).1 = ts := by
    intro ts
    induction ts with
    | nil => intro c; rfl
    | cons t ts ih => intro c; simp [output, ih, Nat.mod_one]
  cases broke <;> simp [runs, outputBreak, H]

/-- **C86, the code disagrees.** With a coarser `outputstep`, leaving the loop shifts the moments stored afterwards:
yields at 0,1,2 with a `break` at 2, then 3,4, storing every second one: 0, 2 and then 3 instead of 4. -/
theorem C86_break_shifts :
    runs 2 0 [(([0, 1, 2] : List ℕ), true), ([3, 4], false)] = [0, 2, 3] ∧
      ¬ EveryNth 2 [0, 1, 2, 3, 4] (runs 2 0 [(([0, 1, 2] : List ℕ), true), ([3, 4], false)]) := by
  constructor
  · decide +kernel
  · intro h
    have := h 2
    revert this
    decide +kernel

end Verif.Sww
