import Verif.Sww.LemmasRead

/-! C88: files of separate meshes put together, files read back, positions in time. -/

set_option linter.unusedSectionVars false

namespace Verif.Sww

variable {K : Type*} [Field K] [LinearOrder K] [IsStrictOrderedRing K]

/-- The result holds the triangles of all the files in order, each with the corners, elevations and histories it had in its own file; its
arrays fit together; the origin of the coordinates is that of the first file. -/
theorem C88_concatenated {first : Sheet K} {rest : List (Sheet K)} {r : Sheet K} (h : ∀ s ∈ first :: rest, s.Fits)
    (hr : mergeSheets (first :: rest) = some r) :
    r.Fits ∧ r.triangles = (first :: rest).flatMap Sheet.triangles ∧ r.xll = first.xll ∧ r.yll = first.yll ∧
      r.x.length = ((first :: rest).map fun s => s.x.length).sum := by
  simp only [mergeSheets] at hr
  split at hr
  · simp at hr
  · next r' h' =>
    simp only [Option.some.injEq] at hr
    subst hr
    obtain ⟨h1, h2, _, h4, h5, h6⟩ := append_spec (h first List.mem_cons_self) (fun s hs => h s (List.mem_cons_of_mem _ hs)) h'
    refine ⟨⟨h1.y, h1.elevation, fun q => ?_, h1.rows, h1.volumes⟩, h2, h4, h5, by simpa using h6⟩
    simpa using h1.slices q

/-- The merge succeeds exactly for files with equally many stored times. -/
theorem C88_accepted {first : Sheet K} {rest : List (Sheet K)} (h : ∀ s ∈ first :: rest, s.Fits) :
    (∃ r, mergeSheets (first :: rest) = some r) ↔ ∀ s ∈ rest, s.times.length = first.times.length := by
  rw [← append_isSome (h first List.mem_cons_self) (fun s hs => h s (List.mem_cons_of_mem _ hs))]
  simp only [mergeSheets]
  constructor
  · rintro ⟨r, hr⟩
    split at hr
    · simp at hr
    · next r' h' => exact ⟨r', h'⟩
  · rintro ⟨r, hr⟩
    simp [hr]

/-- The moments of the result, counted from its start time, are the stored times of the first file as they stand: its start time has
disappeared. -/
theorem C88_times {first : Sheet K} {rest : List (Sheet K)} {r : Sheet K} (h : ∀ s ∈ first :: rest, s.Fits)
    (hr : mergeSheets (first :: rest) = some r) :
    r.times.map (r.starttime + ·) = first.times ∧ (first.starttime = 0 → r.times.map (r.starttime + ·) = first.times.map (first.starttime + ·)) ∧
      (first.starttime ≠ 0 → first.times ≠ [] → r.times.map (r.starttime + ·) ≠ first.times.map (first.starttime + ·)) := by
  have key : r.times.map (r.starttime + ·) = first.times := by
    simp only [mergeSheets] at hr
    split at hr
    · simp at hr
    · next r' h' =>
      simp only [Option.some.injEq] at hr
      subst hr
      obtain ⟨_, _, h3, _⟩ := append_spec (h first List.mem_cons_self) (fun s hs => h s (List.mem_cons_of_mem _ hs)) h'
      simp [h3, List.map_map, Function.comp_def]
  refine ⟨key, ?_, ?_⟩
  · intro h0
    rw [key, h0]
    simp
  · intro h0 hne heq
    rw [key] at heq
    obtain ⟨a, l, hl⟩ := List.exists_cons_of_ne_nil hne
    rw [hl, List.map_cons, List.cons.injEq] at heq
    apply h0
    have := heq.1
    linarith

section weed
variable {α : Type*} [DecidableEq α]

/-- Excising duplicate points: no point occurs twice, the points are the same, every corner of every triangle stays where it was, and two
corners get the same number exactly if they are at the same place. -/
theorem C88_weed {points p' : List α} {volumes v' : List (Fin 3 → ℕ)} (h : weed points volumes = some (p', v')) :
    p'.Nodup ∧ (∀ a, a ∈ p' ↔ a ∈ points) ∧ v'.length = volumes.length ∧
      (∀ (t : ℕ) (v w : Fin 3 → ℕ), volumes[t]? = some v → v'[t]? = some w → ∀ k, ∃ a, points[v k]? = some a ∧ p'[w k]? = some a) ∧
      ∀ (t u : ℕ) (v w v₂ w₂ : Fin 3 → ℕ), volumes[t]? = some v → v'[t]? = some w → volumes[u]? = some v₂ → v'[u]? = some w₂ →
        ∀ k l, (w k = w₂ l ↔ points[v k]? = points[v₂ l]?) := by
  simp only [weed] at h
  split at h
  next hin =>
    simp only [Option.some.injEq, Prod.mk.injEq] at h
    obtain ⟨rfl, rfl⟩ := h
    have keep : ∀ (t : ℕ) (v w : Fin 3 → ℕ), volumes[t]? = some v → (volumes.map fun (v : Fin 3 → ℕ) k => match points[v k]? with
        | some a => (firsts points).idxOf a
        | none => 0)[t]? = some w → ∀ k, ∃ a, points[v k]? = some a ∧ (firsts points)[w k]? = some a := by
      intro t v w hv hw k
      rw [List.getElem?_map, hv] at hw
      simp only [Option.map_some, Option.some.injEq] at hw
      have hlt := hin v (List.mem_of_getElem? hv) k
      have he := List.getElem?_eq_getElem hlt
      refine ⟨points[v k], he, ?_⟩
      rw [← hw]
      simp only [he]
      have hm : points[v k] ∈ firsts points := (mem_firsts _ _).2 (List.getElem_mem _)
      rw [List.getElem?_eq_getElem (List.idxOf_lt_length_of_mem hm), List.getElem_idxOf]
    refine ⟨firsts_nodup _, mem_firsts _, by simp, keep, ?_⟩
    intro t u v w v₂ w₂ h1 h2 h3 h4 k l
    obtain ⟨a, ha, ha'⟩ := keep t v w h1 h2 k
    obtain ⟨b, hb, hb'⟩ := keep u v₂ w₂ h3 h4 l
    rw [ha, hb]
    constructor
    · intro hkl
      rw [hkl, hb'] at ha'
      exact ha'.symm
    · intro hab
      rw [← hab] at hb'
      have h1 := List.getElem?_eq_some_iff.1 ha'
      have h2 := List.getElem?_eq_some_iff.1 hb'
      obtain ⟨l1, e1⟩ := h1
      obtain ⟨l2, e2⟩ := h2
      simp only [Option.some.injEq] at hab
      exact (firsts_nodup points).getElem_inj_iff.1 (e1.trans e2.symm)
  next => simp at h

/-- It works exactly when every corner refers to a point. -/
theorem C88_weed_accepted {points : List α} {volumes : List (Fin 3 → ℕ)} :
    (weed points volumes).isSome ↔ ∀ v ∈ volumes, ∀ k, v k < points.length := by
  simp only [weed]
  split
  · next h => simpa using h
  · next h => simpa using h

/-- A file with separate corners is read back as a mesh and an array: the array has a value for every node exactly if no two triangles touch. -/
theorem C88_values_match {points p' : List α} {volumes v' : List (Fin 3 → ℕ)} {values w : List K} (hv : values.length = points.length)
    (h : readMesh false points volumes values = some (p', v', w)) : w.length = p'.length ↔ points.Nodup := by
  simp only [readMesh, weed] at h
  split at h
  next => contradiction
  next =>
    split at h
    · next p v hw =>
      simp only [Option.some.injEq, Prod.mk.injEq] at h
      obtain ⟨rfl, rfl, rfl⟩ := h
      split at hw
      · simp only [Option.some.injEq, Prod.mk.injEq] at hw
        obtain ⟨rfl, rfl⟩ := hw
        rw [hv, ← firsts_length_eq]
        exact eq_comm
      · simp at hw
    · simp at h

/-- A smooth file is read back as it was stored. -/
theorem C88_values_smooth (points : List α) (volumes : List (Fin 3 → ℕ)) (values : List K) :
    readMesh true points volumes values = some (points, volumes, values) := rfl

end weed

/-- A moment is accepted exactly within the stored times. -/
theorem C88_time_accepted {time : List K} {a b : K} (ha : time.head? = some a) (hb : time.getLast? = some b) (tau : K) :
    (timeInterp time tau).isSome ↔ a ≤ tau ∧ tau ≤ b := by
  constructor
  · intro h
    by_contra hc
    have : tau < a ∨ b < tau := by
      by_contra h'
      push Not at h'
      exact hc h'
    simp [timeInterp, ha, hb, this] at h
  · rintro ⟨h1, h2⟩
    rcases timeInterp_spec ha hb h1 h2 with ⟨n, h, _⟩ | ⟨n, c, d, h, _⟩ <;> simp [h]

/-- What is read for an accepted moment: a stored slice if the moment is stored under that index, otherwise the mixture of two successive
slices, around the moment, in the proportion of the times. -/
theorem C88_time_value {time : List K} {Q : List (List K)} {a b tau : K} (ha : time.head? = some a) (hb : time.getLast? = some b) (h1 : a ≤ tau)
    (h2 : tau ≤ b) (hQ : Q.length = time.length) :
    ∃ p q, timeInterp time tau = some p ∧ interpolated Q p = some q ∧
      ((∃ n : ℕ, time[n]? = some tau ∧ Q[n]? = some q) ∨
        ∃ (n : ℕ) (c d : K) (u v : List K), time[n]? = some c ∧ time[n + 1]? = some d ∧ c < tau ∧ tau < d ∧ Q[n]? = some u ∧ Q[n + 1]? = some v ∧
          Between u v ((tau - c) / (d - c)) q) := by
  rcases timeInterp_spec ha hb h1 h2 with ⟨n, h, hn⟩ | ⟨n, c, d, h, hc, hd, hct, htd⟩
  · have hl : n < Q.length := by rw [hQ]; exact (List.getElem?_eq_some_iff.1 hn).1
    refine ⟨_, Q[n], h, ?_, Or.inl ⟨n, hn, List.getElem?_eq_getElem hl⟩⟩
    simp [interpolated, List.getElem?_eq_getElem hl]
  · have hl' : n + 1 < Q.length := by rw [hQ]; exact (List.getElem?_eq_some_iff.1 hd).1
    have hl : n < Q.length := by omega
    have hpos : 0 < (tau - c) / (d - c) := div_pos (sub_pos.2 hct) (sub_pos.2 (hct.trans htd))
    refine ⟨_, List.zipWith (fun u v => (1 - (tau - c) / (d - c)) * u + (tau - c) / (d - c) * v) Q[n] Q[n + 1], h, ?_,
      Or.inr ⟨n, c, d, Q[n], Q[n + 1], hc, hd, hct, htd, List.getElem?_eq_getElem hl, List.getElem?_eq_getElem hl', ?_⟩⟩
    · simp only [interpolated, if_pos hpos, List.getElem?_eq_getElem hl, List.getElem?_eq_getElem hl']
    · refine ⟨by simp, ?_⟩
      intro m u v hu hv
      rw [List.getElem?_zipWith, hu, hv]
      simp only [Option.some.injEq]
      ring

/-- With increasing times a stored moment gives its own slice. -/
theorem C88_time_exact {time : List K} {Q : List (List K)} {n : ℕ} {tau : K} (hs : time.Pairwise (· < ·)) (hn : time[n]? = some tau)
    (hQ : Q.length = time.length) : ∃ p, timeInterp time tau = some p ∧ interpolated Q p = Q[n]? := by
  obtain ⟨hl, hn'⟩ := List.getElem?_eq_some_iff.1 hn
  have hne : time ≠ [] := by rintro rfl; simp at hl
  have mono : ∀ (i j : ℕ) (hi : i < time.length) (hj : j < time.length), i < j → time[i] < time[j] := fun i j hi hj hij =>
    List.pairwise_iff_getElem.1 hs i j hi hj hij
  have hmono : ∀ (i j : ℕ) (hi : i < time.length) (hj : j < time.length), i ≤ j → time[i] ≤ time[j] := by
    intro i j hi hj hij
    rcases hij.lt_or_eq with h | h
    · exact (mono i j hi hj h).le
    · subst h; exact le_refl _
  have hpos : 0 < time.length := by omega
  have ha : time.head? = some time[0] := by rw [List.head?_eq_getElem?]; exact List.getElem?_eq_getElem hpos
  have hb : time.getLast? = some (time[time.length - 1]'(by omega)) := by
    rw [List.getLast?_eq_getElem?]; exact List.getElem?_eq_getElem _
  have inj : ∀ m, time[m]? = some tau → m = n := by
    intro m hm
    obtain ⟨hml, hm'⟩ := List.getElem?_eq_some_iff.1 hm
    rcases lt_trichotomy m n with h | h | h
    · have := mono m n hml hl h
      rw [hm', hn'] at this
      exact absurd this (lt_irrefl _)
    · exact h
    · have := mono n m hl hml h
      rw [hm', hn'] at this
      exact absurd this (lt_irrefl _)
  obtain ⟨p, q, hp, hq, hcase⟩ := C88_time_value (Q := Q) ha hb (hn' ▸ hmono 0 n hpos hl (Nat.zero_le _))
    (hn' ▸ hmono n (time.length - 1) hl (by omega) (by omega)) hQ
  refine ⟨p, hp, ?_⟩
  rw [hq]
  rcases hcase with ⟨m, hm, hqm⟩ | ⟨m, c, d, u, v, hc, hd, hct, htd, _⟩
  · rw [← inj m hm, hqm]
  · exfalso
    obtain ⟨hcl, hc'⟩ := List.getElem?_eq_some_iff.1 hc
    obtain ⟨hdl, hd'⟩ := List.getElem?_eq_some_iff.1 hd
    rcases Nat.lt_or_ge m n with h | h
    · have := hmono (m + 1) n hdl hl h
      rw [hd', hn'] at this
      exact absurd htd (not_lt.2 this)
    · have := hmono n m hl hcl h
      rw [hc', hn'] at this
      exact absurd hct (not_lt.2 this)

end Verif.Sww
