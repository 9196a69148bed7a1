import Verif.Mux.PropsSts
import Mathlib.Order.Bounds.Basic

/-! # What is refused, and where the origin lies -/

namespace Verif.Mux

set_option linter.unusedSectionVars false

variable {K : Type} [Field K] [LinearOrder K] [IsStrictOrderedRing K]

/-- **C110.** What has been read was read with one weight for each source, from at least one source, and has at least two times. -/
theorem C110_weights {srcs : List (Src K)} {weights : List K} {perm : List ℕ} {r : Result K} (h : readPy srcs weights perm = .ok r) :
    srcs ≠ [] ∧ weights.length = srcs.length ∧ 2 ≤ r.times.length := by
  unfold readPy at h
  by_cases h1 : (srcs.isEmpty || decide (srcs.length ≠ weights.length)) = true
  · rw [if_pos h1] at h; cases h
  · rw [if_neg h1] at h
    simp only [Bool.or_eq_true, decide_eq_true_eq, not_or, ne_eq, not_not, List.isEmpty_iff] at h1
    refine ⟨h1.1, h1.2.symm, ?_⟩
    cases h2 : readMux2 srcs weights perm with
    | error e => rw [h2] at h; cases h
    | ok q =>
      obtain ⟨nt, dt, rows⟩ := q
      rw [h2] at h
      simp only at h
      by_cases h3 : (nt : ℤ) < startStep nt rows ∨ finishStep rows < 0 ∨ finishStep rows ≤ startStep nt rows
      · rw [if_pos h3] at h; cases h
      · rw [if_neg h3] at h
        by_cases h4 : dt ≤ 0 ∨ nt = 0
        · rw [if_pos h4] at h; cases h
        · rw [if_neg h4] at h
          cases h
          simp only [List.length_map, List.length_range]
          push Not at h3
          omega

theorem allclose_iff (a b : List K) :
    allclose a b = true ↔ a.length = b.length ∧ ∀ (k : ℕ) x y, a[k]? = some x → b[k]? = some y → |x - y| ≤ 1 / 10 ^ 8 + 1 / 10 ^ 5 * |y| := by
  unfold allclose
  rw [Bool.and_eq_true, beq_iff_eq, List.all_eq_true]
  constructor
  · rintro ⟨h1, h2⟩
    refine ⟨h1, fun k x y hx hy => ?_⟩
    have hm : (x, y) ∈ a.zip b := by
      refine List.mem_of_getElem? (i := k) ?_
      rw [List.getElem?_zip_eq_some]
      exact ⟨hx, hy⟩
    simpa [near] using h2 _ hm
  · rintro ⟨h1, h2⟩
    refine ⟨h1, fun p hp => ?_⟩
    obtain ⟨k, hk⟩ := List.getElem?_of_mem hp
    have hk' : (a.zip b)[k]? = some (p.1, p.2) := by rw [hk]
    rw [List.getElem?_zip_eq_some] at hk'
    simpa [near] using h2 k p.1 p.2 hk'.1 hk'.2

/-- Lists agree to five digits. -/
def Alike (a b : List K) : Prop :=
  a.length = b.length ∧ ∀ (k : ℕ) x y, a[k]? = some x → b[k]? = some y → |x - y| ≤ 1 / 10 ^ 8 + 1 / 10 ^ 5 * |y|

/-- **C111.** Heights and velocities are only put into one file if places, elevations and times of all three agree. -/
theorem C111_agree {o : Options K} {ha ua va : List (Src K)} {f : StsFile K} (h : urs2sts o ha ua va = .ok f) :
    ∃ a b c, readPy ha (o.weights.getD (List.replicate ha.length (1 / (ha.length : K)))) (o.perm.getD []) = .ok a ∧
      readPy ua (o.weights.getD (List.replicate ha.length (1 / (ha.length : K)))) (o.perm.getD []) = .ok b ∧
      readPy va (o.weights.getD (List.replicate ha.length (1 / (ha.length : K)))) (o.perm.getD []) = .ok c ∧
      ∀ p, p = (b, a) ∨ p = (c, b) → Alike p.1.times p.2.times ∧ Alike p.1.lats p.2.lats ∧ Alike p.1.lons p.2.lons ∧
        Alike p.1.elevation p.2.elevation ∧ |p.1.starttime - p.2.starttime| ≤ 1 / 10 ^ 8 + 1 / 10 ^ 5 * |p.2.starttime| := by
  obtain ⟨a, b, c, h1, h2, h3, e1, e2⟩ := urs2sts_reads h
  refine ⟨a, b, c, h1, h2, h3, ?_⟩
  rintro ⟨p, q⟩ hp
  have e : agrees p q = true := by
    rcases hp with hp | hp <;> cases hp
    · exact e1
    · exact e2
  unfold agrees at e
  simp only [Bool.and_eq_true, allclose_iff] at e
  obtain ⟨⟨⟨⟨t1, t2⟩, t3⟩, t4⟩, t5⟩ := e
  exact ⟨t1, t2, t3, t4, by simpa [near] using t5⟩

theorem foldl_min_isLeast (l : List K) (x : K) : IsLeast {y | y ∈ x :: l} (l.foldl min x) := by
  induction l generalizing x with
  | nil => exact ⟨by simp, by intro y hy; simp at hy; simp [hy]⟩
  | cons z l ih =>
    rw [List.foldl_cons]
    obtain ⟨h1, h2⟩ := ih (min x z)
    have hle := h2 (show min x z ∈ {y | y ∈ min x z :: l} by simp)
    refine ⟨?_, ?_⟩
    · simp only [Set.mem_ofPred_eq, List.mem_cons] at h1 ⊢
      rcases h1 with h1 | h1
      · rcases min_choice x z with e | e
        · left; rw [h1, e]
        · right; left; rw [h1, e]
      · exact Or.inr (Or.inr h1)
    · intro y hy
      simp only [Set.mem_ofPred_eq, List.mem_cons] at hy
      rcases hy with rfl | rfl | hy
      · exact hle.trans (min_le_left _ _)
      · exact hle.trans (min_le_right _ _)
      · exact h2 (by simp [hy])

/-- **C111.** If no origin is given, the origin of the file is the lower left corner of its places, so that coordinates are not negative; the order of
the gauges is the one that was asked for, or that of the sources. -/
theorem C111_origin {o : Options K} {ha ua va : List (Src K)} {f : StsFile K} (h : urs2sts o ha ua va = .ok f) {c : Result K}
    (h3 : readPy va (o.weights.getD (List.replicate ha.length (1 / (ha.length : K)))) (o.perm.getD []) = .ok c) :
    f.permutation = o.perm.getD (List.range (c.lats.zip c.lons).length) ∧
    (∀ z x y, o.origin = some (z, x, y) → f.zone = z ∧ f.xll = x ∧ f.yll = y) ∧
    (o.origin = none → c.lats.zip c.lons ≠ [] →
      IsLeast {x | ∃ p ∈ c.lats.zip c.lons, x = (o.project p.1 p.2).2.1} f.xll ∧
      IsLeast {y | ∃ p ∈ c.lats.zip c.lons, y = (o.project p.1 p.2).2.2} f.yll ∧
      (∀ p ∈ c.lats.zip c.lons, (o.project p.1 p.2).1 = f.zone) ∧ (∀ x ∈ f.x, 0 ≤ x) ∧ ∀ y ∈ f.y, 0 ≤ y) := by
  obtain ⟨a, b, c', h1, h2, r3, e1, e2⟩ := urs2sts_reads h
  obtain rfl : c' = c := by rw [h3] at r3; cases r3; rfl
  unfold urs2sts at h
  simp only [h1, h2, h3] at h
  rw [if_neg (by simpa using e1), if_neg (by simpa using e2)] at h
  by_cases hz : ((c'.lats.zip c'.lons).map fun p => o.project p.1 p.2).all
      (fun p => p.1 == o.zone.getD ((((c'.lats.zip c'.lons).map fun p => o.project p.1 p.2).head?.map Prod.fst).getD 0)) = true
  · rw [if_neg (by simpa using hz)] at h
    injection h with h
    subst h
    refine ⟨by simp, ?_, ?_⟩
    · intro z x y ho
      simp [ho]
    · intro ho hne
      simp only [ho, Option.getD_none]
      have low : ∀ g : ℤ × K × K → K,
          IsLeast {x | ∃ p ∈ c'.lats.zip c'.lons, x = g (o.project p.1 p.2)} (least (((c'.lats.zip c'.lons).map fun p => o.project p.1 p.2).map g)) := by
        intro g
        obtain ⟨q, w, hq⟩ : ∃ q w, c'.lats.zip c'.lons = q :: w := List.exists_cons_of_ne_nil hne
        rw [hq, List.map_cons, List.map_cons, least]
        have := foldl_min_isLeast (((w.map fun p => o.project p.1 p.2)).map g) (g (o.project q.1 q.2))
        convert this using 1
        ext x
        simp [eq_comm]
      refine ⟨low _, low _, ?_, ?_, ?_⟩
      · intro p hp
        rw [List.all_eq_true] at hz
        have := hz (o.project p.1 p.2) (List.mem_map_of_mem (f := fun p => o.project p.1 p.2) hp)
        simpa using this
      · intro x hx
        simp only [List.map_map, List.mem_map, Function.comp] at hx
        obtain ⟨p, hp, rfl⟩ := hx
        have := (low fun p => p.2.1).2 ⟨p, hp, rfl⟩
        simp only [List.map_map] at this
        exact sub_nonneg.mpr this
      · intro y hy
        simp only [List.map_map, List.mem_map, Function.comp] at hy
        obtain ⟨p, hp, rfl⟩ := hy
        have := (low fun p => p.2.2).2 ⟨p, hp, rfl⟩
        simp only [List.map_map] at this
        exact sub_nonneg.mpr this
  · rw [if_pos (by simpa using hz)] at h
    cases h

end Verif.Mux
