import Verif.Radar.Spec
import Mathlib.Tactic.Ring
import Mathlib.Tactic.FieldSimp
import Mathlib.Algebra.BigOperators.Ring.List

/-!
# Rain from radar files
-/

set_option linter.unusedSectionVars false

namespace Verif.Radar

variable {K : Type} [Field K] [LinearOrder K] [IsStrictOrderedRing K]

theorem wanted_iff (start final : Option K) (f : File K) : wanted start final f = true ↔ InTime start final f := by
  unfold wanted InTime
  cases start <;> cases final <;> simp [and_comm]

theorem chosen_filter (start final : Option K) (files : List (File K)) : Chosen start final files (files.filter (wanted start final)) := by
  refine ⟨files.filter fun f => !wanted start final f, (List.filter_append_perm _ _).symm, ?_, ?_⟩
  · intro f hf; exact (wanted_iff _ _ _).mp (List.mem_filter.mp hf).2
  · intro f hf h
    have := (List.mem_filter.mp hf).2
    rw [(wanted_iff _ _ _).mpr h] at this
    simp at this

theorem addTo_length (a b : List K) (n : ℕ) (ha : a.length = n) (hb : b.length = n) : (addTo a b).length = n := by
  unfold addTo; simp [ha, hb]

theorem addTo_get (a b : List K) (h : a.length = b.length) (k : ℕ) : (addTo a b).getD k 0 = a.getD k 0 + b.getD k 0 := by
  unfold addTo
  simp only [List.getD_eq_getElem?_getD, List.getElem?_zipWith]
  by_cases hk : k < a.length
  · simp [hk, h ▸ hk]
  · have hb : ¬ k < b.length := h ▸ hk
    simp [hk, hb]

theorem slice_length (f : File K) : (slice f).length = f.rain.length := by simp [slice]

theorem fold_add (n : ℕ) (fs : List (File K)) (h : Sized n fs) (a : List K) (ha : a.length = n) :
    (fs.foldl (fun a g => addTo a (slice g)) a).length = n ∧
    ∀ k, (fs.foldl (fun a g => addTo a (slice g)) a).getD k 0 = a.getD k 0 + (fs.map fun g => (slice g).getD k 0).sum := by
  induction fs generalizing a with
  | nil => simp [ha]
  | cons f fs ih =>
    have hf : (slice f).length = n := by rw [slice_length]; exact h f List.mem_cons_self
    obtain ⟨i1, i2⟩ := ih (fun g hg => h g (List.mem_cons_of_mem _ hg)) (addTo a (slice f)) (addTo_length a _ n ha hf)
    refine ⟨i1, fun k => ?_⟩
    rw [List.foldl_cons, i2, addTo_get a _ (ha.trans hf.symm), List.map_cons, List.sum_cons, add_assoc]

theorem foldl_max (l : List K) (m : K) : m ≤ l.foldl max m ∧ (∀ v ∈ l, v ≤ l.foldl max m) ∧ (l.foldl max m = m ∨ l.foldl max m ∈ l) := by
  induction l generalizing m with
  | nil => simp
  | cons a l ih =>
    obtain ⟨i1, i2, i3⟩ := ih (max m a)
    rw [List.foldl_cons]
    refine ⟨(le_max_left _ _).trans i1, ?_, ?_⟩
    · intro v hv
      rcases List.mem_cons.mp hv with rfl | hv
      · exact (le_max_right _ _).trans i1
      · exact i2 v hv
    · rcases i3 with e | e
      · rw [e]
        rcases le_total m a with h | h
        · rw [max_eq_right h]; exact .inr List.mem_cons_self
        · rw [max_eq_left h]; exact .inl rfl
      · exact .inr (List.mem_cons_of_mem _ e)

theorem fold_greatest (fs : List (File K)) (m : K) :
    m ≤ fs.foldl (fun m g => (slice g).foldl max m) m ∧ (∀ f ∈ fs, ∀ v ∈ slice f, v ≤ fs.foldl (fun m g => (slice g).foldl max m) m) ∧
    (fs.foldl (fun m g => (slice g).foldl max m) m = m ∨ ∃ f ∈ fs, fs.foldl (fun m g => (slice g).foldl max m) m ∈ slice f) := by
  induction fs generalizing m with
  | nil => simp
  | cons a fs ih =>
    obtain ⟨i1, i2, i3⟩ := ih ((slice a).foldl max m)
    obtain ⟨j1, j2, j3⟩ := foldl_max (slice a) m
    rw [List.foldl_cons]
    refine ⟨j1.trans i1, ?_, ?_⟩
    · intro f hf v hv
      rcases List.mem_cons.mp hf with rfl | hf
      · exact (j2 v hv).trans i1
      · exact i2 f hf v hv
    · rcases i3 with e | ⟨f, hf, e⟩
      · rw [e]
        rcases j3 with e' | e'
        · exact .inl e'
        · exact .inr ⟨a, List.mem_cons_self, e'⟩
      · exact .inr ⟨f, List.mem_cons_of_mem _ hf, e⟩

theorem sorted_times (l : List (File K)) : (l.insertionSort fun a b => a.time ≤ b.time).Pairwise fun a b => a.time ≤ b.time := by
  have : Std.Total fun a b : File K => a.time ≤ b.time := ⟨fun a b => le_total _ _⟩
  have : IsTrans (File K) fun a b => a.time ≤ b.time := ⟨fun _ _ _ h1 h2 => le_trans h1 h2⟩
  exact List.pairwise_insertionSort _ l

/-- C125. The slices are those of the files in time, each once, in order of time with their times; the accumulated rain is their sum in each cell, and the
greatest value is that of all slices (or 0). -/
theorem C125_slices (same : K → K → Bool) (start final : Option K) (files : List (File K)) (n : ℕ) (hn : Sized n files) (r : Rain K)
    (h : read same start final files = some r) :
    (∃ l, Chosen start final files l ∧ l ≠ [] ∧ l.Pairwise (fun a b => a.time ≤ b.time) ∧ r.times = l.map File.time ∧
      r.slices = l.map fun f => f.rain.map fun v => v / 1000) ∧
    (r.accumulated.length = n ∧ ∀ k, r.accumulated.getD k 0 = (r.slices.map fun s => s.getD k 0).sum) ∧
    0 ≤ r.greatest ∧ (∀ s ∈ r.slices, ∀ v ∈ s, v ≤ r.greatest) ∧ (r.greatest = 0 ∨ ∃ s ∈ r.slices, r.greatest ∈ s) := by
  unfold read at h
  have hc := chosen_filter start final files
  have hsz : Sized n (files.filter (wanted start final)) := fun f hf => hn f (List.mem_filter.mp hf).1
  generalize files.filter (wanted start final) = l0 at h hc hsz
  cases l0 with
  | nil => cases h
  | cons f fs =>
    simp only at h
    by_cases hs : (fs.all fun g => same f.period g.period) = true
    · rw [if_pos hs] at h
      cases h
      have hp := List.perm_insertionSort (fun a b : File K => a.time ≤ b.time) (f :: fs)
      obtain ⟨g1, g2, g3⟩ := fold_greatest (f :: fs) (0 : K)
      refine ⟨⟨_, ?_, ?_, sorted_times _, rfl, rfl⟩, ?_, g1, ?_, ?_⟩
      · obtain ⟨rest, p1, p2, p3⟩ := hc
        exact ⟨rest, p1.trans (List.Perm.append_right rest hp.symm), fun x hx => p2 x (hp.mem_iff.mp hx), p3⟩
      · intro e
        have := hp.length_eq
        rw [e] at this
        simp at this
      · have hf : (slice f).length = n := by rw [slice_length]; exact hsz f List.mem_cons_self
        obtain ⟨a1, a2⟩ := fold_add n fs (fun g hg => hsz g (List.mem_cons_of_mem _ hg)) (slice f) hf
        refine ⟨a1, fun k => ?_⟩
        rw [a2, List.map_map]
        have e := ((hp.map fun g => (slice g).getD k 0).sum_eq)
        change _ = (List.map (fun g => (slice g).getD k 0) _).sum
        rw [e, List.map_cons, List.sum_cons]
      · intro s hs' v hv
        obtain ⟨g, hg, rfl⟩ := List.mem_map.mp hs'
        exact g2 g (hp.mem_iff.mp hg) v hv
      · rcases g3 with e | ⟨g, hg, e⟩
        · exact .inl e
        · exact .inr ⟨slice g, List.mem_map_of_mem (hp.mem_iff.mpr hg), e⟩
    · rw [if_neg hs] at h; cases h

/-- C125. The order in which files are found does not matter, if they have different times and the same period. -/
theorem C125_order (same : K → K → Bool) (start final : Option K) (files files' : List (File K)) (n : ℕ) (hn : Sized n files) (hp : files.Perm files')
    (ht : (files.map File.time).Nodup) (p : K) (hper : ∀ f ∈ files, f.period = p) (r r' : Rain K) (h : read same start final files = some r)
    (h' : read same start final files' = some r') : r = r' := by
  have hn' : Sized n files' := fun f hf => hn f (hp.mem_iff.mpr hf)
  have s1 := C125_slices same start final files n hn r h
  have s2 := C125_slices same start final files' n hn' r' h'
  have hq : (files.filter (wanted start final)).Perm (files'.filter (wanted start final)) := hp.filter _
  have hsub : ∀ f ∈ files.filter (wanted start final), f ∈ files := fun f hf => (List.mem_filter.mp hf).1
  unfold read at h h'
  generalize files.filter (wanted start final) = l1 at h hq hsub
  generalize files'.filter (wanted start final) = l2 at h' hq
  cases l1 with
  | nil => cases h
  | cons f fs =>
    cases l2 with
    | nil => cases h'
    | cons g gs =>
      simp only at h h'
      by_cases c1 : (fs.all fun x => same f.period x.period) = true
      · rw [if_pos c1] at h
        by_cases c2 : (gs.all fun x => same g.period x.period) = true
        · rw [if_pos c2] at h'
          have e1 := List.perm_insertionSort (fun a b : File K => a.time ≤ b.time) (f :: fs)
          have e2 := List.perm_insertionSort (fun a b : File K => a.time ≤ b.time) (g :: gs)
          have es : (f :: fs).insertionSort (fun a b => a.time ≤ b.time) = (g :: gs).insertionSort fun a b => a.time ≤ b.time := by
            refine List.Perm.eq_of_pairwise ?_ (sorted_times _) (sorted_times _) (e1.trans (hq.trans e2.symm))
            intro a b ha hb h1 h2
            have ha' := hsub a (e1.mem_iff.mp ha)
            have hb' := hsub b (hq.mem_iff.mpr (e2.mem_iff.mp hb))
            exact List.inj_on_of_nodup_map ht ha' hb' (le_antisymm h1 h2)
          have ep : f.period = g.period := by
            rw [hper f (hsub f List.mem_cons_self), hper g (hsub g (hq.mem_iff.mpr List.mem_cons_self))]
          have et : r.times = r'.times ∧ r.slices = r'.slices ∧ r.step = r'.step ∧ r.start = r'.start := by
            cases h; cases h'
            simp only
            rw [es, ep]
            exact ⟨rfl, rfl, rfl, rfl⟩
          have ea : r.accumulated = r'.accumulated := by
            apply List.ext_getElem
            · rw [s1.2.1.1, s2.2.1.1]
            · intro k k1 k2
              have q := (s1.2.1.2 k).trans ((congrArg (fun s => (List.map (fun s => s.getD k 0) s).sum) et.2.1).trans (s2.2.1.2 k).symm)
              simpa [List.getD_eq_getElem?_getD, k1, k2] using q
          have eg : r.greatest = r'.greatest := by
            obtain ⟨-, -, a0, a1, a2⟩ := s1
            obtain ⟨-, -, b0, b1, b2⟩ := s2
            rw [← et.2.1] at b1 b2
            apply le_antisymm
            · rcases a2 with e | ⟨s, hs, e⟩
              · rw [e]; exact b0
              · exact b1 s hs _ e
            · rcases b2 with e | ⟨s, hs, e⟩
              · rw [e]; exact a0
              · exact a1 s hs _ e
          cases r; cases r'
          simp only at et ea eg
          obtain ⟨rfl, rfl, rfl, rfl⟩ := et
          rw [ea, eg]
        · rw [if_neg c2] at h'; cases h'
      · rw [if_neg c1] at h; cases h

end Verif.Radar
