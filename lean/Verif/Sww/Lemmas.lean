import Verif.Sww.Spec

set_option linter.unusedSectionVars false

namespace Verif.Sww

variable {K : Type*} [Field K] [LinearOrder K] [IsStrictOrderedRing K]

theorem writeAt_length {α : Type*} (l : List α) (v : α) : writeAt l l.length v = l ++ [v] := by
  simp [writeAt]

theorem writeAt_lt {α : Type*} (l : List α) (i : ℕ) (v : α) (h : i < l.length) : writeAt l i v = l.set i v := by
  simp [writeAt, h]

theorem mem_writeAt {α : Type*} {l : List α} {i : ℕ} {v x : α} (h : x ∈ writeAt l i v) : x ∈ l ∨ x = v := by
  unfold writeAt at h
  split at h
  · exact List.mem_or_eq_of_mem_set h
  · simpa using h

theorem writeAll_spec (rnd : K → K) (i : ℕ) (q : String → List K) :
    ∀ (ns : List String) (f g : String → Var K), ns.Nodup → writeAll rnd i q ns f = some g →
      (∀ n ∈ ns, writeVar rnd i (q n) (f n) = some (g n)) ∧ ∀ n, n ∉ ns → g n = f n := by
  intro ns
  induction ns with
  | nil => intro f g _ h; simp [writeAll] at h; subst h; simp
  | cons m ns ih =>
    intro f g hn h
    rw [writeAll] at h
    rcases hv : writeVar rnd i (q m) (f m) with _ | v
    · simp [hv] at h
    · simp only [hv] at h
      have hm : m ∉ ns := (List.nodup_cons.mp hn).1
      obtain ⟨h1, h2⟩ := ih _ _ (List.nodup_cons.mp hn).2 h
      refine ⟨?_, ?_⟩
      · intro n hnm
        rcases List.mem_cons.mp hnm with rfl | hnm
        · rw [h2 n hm, Function.update_self]; exact hv
        · have hne : n ≠ m := fun e => hm (e ▸ hnm)
          have := h1 n hnm
          rwa [Function.update_of_ne hne] at this
      · intro n hnm
        simp only [List.mem_cons, not_or] at hnm
        rw [h2 n hnm.2, Function.update_of_ne hnm.1]

theorem writeVar_ok (rnd : K → K) (i : ℕ) (q : List K) (v : Var K) (hq : q ≠ []) :
    ∃ a b, q.min? = some a ∧ q.max? = some b ∧
      writeVar rnd i q v = some ⟨writeAt v.rows i (q.map rnd), if a < v.lo then rnd a else v.lo,
        if b > v.hi then rnd b else v.hi⟩ := by
  rcases ha : q.min? with _ | a
  · exact absurd (List.min?_eq_none_iff.mp ha) hq
  rcases hb : q.max? with _ | b
  · exact absurd (List.max?_eq_none_iff.mp hb) hq
  exact ⟨a, b, rfl, rfl, by simp [writeVar, ha, hb]⟩

theorem writeAll_ok (rnd : K → K) (i : ℕ) (q : String → List K) (hq : ∀ n, q n ≠ []) :
    ∀ (ns : List String) (f : String → Var K), ∃ g, writeAll rnd i q ns f = some g := by
  intro ns
  induction ns with
  | nil => intro f; exact ⟨f, rfl⟩
  | cons m ns ih =>
    intro f
    obtain ⟨a, b, _, _, h⟩ := writeVar_ok rnd i (q m) (f m) (hq m)
    rw [writeAll, h]
    exact ih _

theorem storeCentroids_spec (W : Writer K) (i : ℕ) (q : String → List K) :
    ∀ (ns : List String) (f : String → List (List K)), ns.Nodup →
      (∀ n ∈ ns, storeCentroids W i q ns f n = writeAt (f n) i ((q n).map W.rnd)) ∧
        ∀ n, n ∉ ns → storeCentroids W i q ns f n = f n := by
  intro ns
  induction ns with
  | nil => intro f _; simp [storeCentroids]
  | cons m ns ih =>
    intro f hn
    have hm : m ∉ ns := (List.nodup_cons.mp hn).1
    obtain ⟨h1, h2⟩ := ih (Function.update f m (writeAt (f m) i ((q m).map W.rnd))) (List.nodup_cons.mp hn).2
    refine ⟨?_, ?_⟩
    · intro n hnm
      rw [storeCentroids]
      rcases List.mem_cons.mp hnm with rfl | hnm
      · rw [h2 n hm, Function.update_self]
      · have hne : n ≠ m := fun e => hm (e ▸ hnm)
        rw [h1 n hnm, Function.update_of_ne hne]
    · intro n hnm
      simp only [List.mem_cons, not_or] at hnm
      rw [storeCentroids, h2 n hnm.2, Function.update_of_ne hnm.1]

theorem choose_length : ∀ (b : List Bool) (n y : List K), b.length = y.length → n.length = y.length →
    (choose b n y).length = y.length := by
  intro b
  induction b with
  | nil => intro n y h1 h2; cases y <;> simp_all [choose]
  | cons b bs ih =>
    intro n y h1 h2
    rcases n with _ | ⟨n, ns⟩
    · cases y <;> simp_all
    rcases y with _ | ⟨y, ys⟩
    · simp at h1
    · simp only [choose, List.length_cons] at *
      rw [ih ns ys (by omega) (by omega)]

theorem choose_get : ∀ (b : List Bool) (n y : List K) (i : ℕ) (bi : Bool) (ni yi : K), b[i]? = some bi →
    n[i]? = some ni → y[i]? = some yi → (choose b n y)[i]? = some (if bi then yi else ni) := by
  intro b
  induction b with
  | nil => intro n y i bi ni yi h; simp at h
  | cons b bs ih =>
    intro n y i bi ni yi h1 h2 h3
    rcases n with _ | ⟨n, ns⟩
    · simp at h2
    rcases y with _ | ⟨y, ys⟩
    · simp at h3
    cases i with
    | zero => simp at h1 h2 h3; subst h1 h2 h3; simp [choose]
    | succ i =>
      simp only [List.getElem?_cons_succ] at h1 h2 h3
      simp only [choose, List.getElem?_cons_succ]
      exact ih ns ys i bi ni yi h1 h2 h3

theorem storable_get (h : K) (w z : List K) (i : ℕ) (a b : K) (ha : w[i]? = some a) (hb : z[i]? = some b) :
    (storable h w z)[i]? = some (decide (h ≤ a - b)) := by
  simp [storable, List.getElem?_zipWith, ha, hb]

/-- What is handed to the file shows the state. -/
theorem shown_shows (W : Writer K) (hr : Rounding W.rnd) (hst : "stage" ∈ W.dynamic) (N M : ℕ) (s : State K)
    (hs : Sized N M s) (n : String) : Shows W.rnd W.minHeight n s ((shown W s n).map W.rnd) := by
  have hlen : (storable W.minHeight (s.vert "stage") (s.vert "elevation")).length = N := by
    simp [storable, hs.vert]
  refine ⟨?_, ?_⟩
  · rw [List.length_map]
    simp only [shown, hst, if_true]
    split_ifs
    · rw [choose_length] <;> simp [hlen, hs.vert]
    · rw [choose_length] <;> simp [hlen, hs.vert]
    · simp
  · intro i w z a hw hz ha
    have hb := storable_get W.minHeight _ _ i w z hw hz
    have hA : ((s.vert n).map W.rnd)[i]? = some (W.rnd a) := by simp [ha]
    rw [List.getElem?_map]
    simp only [shown, hst, if_true, visible]
    by_cases hn : n = "stage"
    · rw [if_pos hn, choose_get _ _ _ i _ _ _ hb hz hA]
      by_cases hd : W.minHeight ≤ w - z
      · simp [hd, hr.idem]
      · simp [hd, hn]
    · rw [if_neg hn]
      by_cases hm : n = "xmomentum" ∨ n = "ymomentum"
      · rw [if_pos hm, choose_get _ _ _ i _ 0 _ hb (by simp [ha]) hA]
        by_cases hd : W.minHeight ≤ w - z
        · simp [hd, hr.idem]
        · simp [hd, hn, hm]
      · rw [if_neg hm, hA]
        by_cases hd : W.minHeight ≤ w - z <;> simp [hd, hn, hm, hr.idem]

theorem shown_ne (W : Writer K) (N M : ℕ) (hN : 0 < N) (s : State K) (hs : Sized N M s) (n : String) :
    shown W s n ≠ [] := by
  have : (shown W s n).length = N := by
    have hlen : (storable W.minHeight (s.vert "stage") (s.vert "elevation")).length = N := by
      simp [storable, hs.vert]
    simp only [shown]
    split_ifs
    · rw [choose_length] <;> simp [hlen, hs.vert]
    · rw [choose_length] <;> simp [hlen, hs.vert]
    · simp [hs.vert]
    · simp [hs.vert]
  intro h
  rw [h] at this
  simp at this
  omega

/-- A file whose variables all have one row for each time. -/
def Even (W : Writer K) (f : File K) : Prop :=
  (∀ n ∈ W.dynamic, (f.dyn n).rows.length = f.times.length) ∧ ∀ n ∈ W.dynamicC, (f.dynC n).length = f.times.length

/-- One call, once the slot is known. -/
theorem storeTimestep_slot (W : Writer K) (hd : W.dynamic.Nodup) (hc : W.dynamicC.Nodup) (N M : ℕ) (hN : 0 < N)
    (s : State K) (hs : Sized N M s) (t : K) (f : File K) (i : ℕ) (hi : slot W.tiny f.times t = some i) :
    ∃ g, storeTimestep W s t f = some g ∧ g.starttime = f.starttime ∧ g.times = writeAt f.times i t ∧
      (∀ n ∈ W.dynamic, writeVar W.rnd i (shown W s n) (f.dyn n) = some (g.dyn n)) ∧
      (∀ n ∈ W.dynamicC, g.dynC n = writeAt (f.dynC n) i ((s.cent n).map W.rnd)) := by
  obtain ⟨d, hdd⟩ := writeAll_ok W.rnd i (shown W s) (fun n => shown_ne W N M hN s hs n) W.dynamic f.dyn
  refine ⟨{ starttime := f.starttime, times := writeAt f.times i t, dyn := d,
            dynC := storeCentroids W i s.cent W.dynamicC f.dynC }, ?_, rfl, rfl, ?_, ?_⟩
  · simp only [storeTimestep, storeQuantities, hi, hdd]
  · exact (writeAll_spec W.rnd i _ W.dynamic f.dyn d hd hdd).1
  · exact (storeCentroids_spec W i s.cent W.dynamicC f.dynC hc).1

theorem writeVar_rows {rnd : K → K} {i : ℕ} {q : List K} {v u : Var K} (h : writeVar rnd i q v = some u) :
    u.rows = writeAt v.rows i (q.map rnd) := by
  unfold writeVar at h
  split at h
  · simp at h; rw [← h]
  · simp at h

theorem slot_append (tiny : K) (ts : List K) (t : K) (h : ∀ s ∈ ts, s < t) : slot tiny ts t = some ts.length := by
  unfold slot
  rcases hl : ts.getLast? with _ | last
  · rfl
  · have := h last (List.mem_of_getLast? hl)
    simp [not_le.mpr this]

theorem slot_same (tiny : K) (htiny : 0 < tiny) (ts : List K) (hts : Apart tiny ts) (k : ℕ) (t : K)
    (hk : ts[k]? = some t) : slot tiny ts t = some k := by
  obtain ⟨hkl, hkt⟩ := List.getElem?_eq_some_iff.mp hk
  have hlt : ∀ i j (hi : i < ts.length) (hj : j < ts.length), i < j → ts[i] + tiny ≤ ts[j] := by
    intro i j hi hj hij
    exact List.pairwise_iff_getElem.mp hts i j hi hj hij
  unfold slot
  rcases hl : ts.getLast? with _ | last
  · rw [List.getLast?_eq_none_iff] at hl; simp [hl] at hkl
  · simp only
    have hlast : t ≤ last := by
      rw [List.getLast?_eq_getElem?] at hl
      obtain ⟨h1, h2⟩ := List.getElem?_eq_some_iff.mp hl
      rcases Nat.lt_or_ge k (ts.length - 1) with hh | hh
      · have := hlt k (ts.length - 1) hkl h1 hh
        rw [hkt, h2] at this
        linarith
      · have : k = ts.length - 1 := by omega
        subst this
        rw [← hkt, ← h2]
    rw [if_pos hlast, List.findIdx?_eq_some_iff_getElem]
    refine ⟨hkl, ?_, ?_⟩
    · simp [hkt, htiny]
    · intro j hj
      have := hlt j k (by omega) hkl hj
      rw [hkt] at this
      simp only [decide_eq_true_eq, not_lt]
      rw [abs_of_nonpos (by linarith)]
      linarith

end Verif.Sww
