import Verif.Damage.LemmasChance

/-! # C112: damage to structures -/

set_option linter.unusedSectionVars false

namespace Verif.Damage

variable {K : Type} [Field K] [LinearOrder K] [IsStrictOrderedRing K]

/-- **C112.** The inundation of a place is the greatest height of water above the floor over all files and all times at which all values are
known; it is never below minus the height of the floor, which is what places outside the mesh get. The momentum likewise. -/
theorem C112_inundation (sqrt : K → K) (ground : K) (n : ℕ) (files : List (List (List (Val K)))) (hf : ∀ f ∈ files, f.length = n) (i : ℕ) (hi : i < n) :
    ∃ d m, (calcMax sqrt ground n files)[i]? = some (d, m) ∧
      IsGreatest {x | x = -ground ∨ ∃ w z uh vh, Seen files i w z uh vh ∧ x = w - z - ground} d ∧
      IsGreatest {x | x = -ground ∨ ∃ w z uh vh, Seen files i w z uh vh ∧ x = sqrt (uh * uh + vh * vh)} m := by
  obtain ⟨a, h1, h2⟩ := calcMax_best sqrt ground n files hf i hi
  exact ⟨a.1, a.2, h1, h2.1, h2.2⟩

/-- **C112.** The order of the files makes no difference. -/
theorem C112_order (sqrt : K → K) (ground : K) (n : ℕ) (files files' : List (List (List (Val K)))) (hp : files.Perm files')
    (hf : ∀ f ∈ files, f.length = n) : calcMax sqrt ground n files = calcMax sqrt ground n files' := by
  have len : ∀ fs : List (List (List (Val K))), (∀ f ∈ fs, f.length = n) → (calcMax sqrt ground n fs).length = n := by
    intro fs h
    unfold calcMax
    suffices ∀ st : List (K × K), st.length = n →
        (fs.foldl (fun st file => List.zipWith (fun a ts => ts.foldl (observe sqrt ground) a) st file) st).length = n from this _ (by simp)
    induction fs with
    | nil => intro st h; exact h
    | cons f fs ih =>
      intro st hst
      rw [List.foldl_cons]
      exact ih (fun g hg => h g (List.mem_cons_of_mem _ hg)) _ (by rw [List.length_zipWith, hst, h f List.mem_cons_self]; simp)
  have hf' : ∀ f ∈ files', f.length = n := fun f h => hf f (hp.mem_iff.mpr h)
  apply List.ext_getElem?
  intro i
  by_cases hi : i < n
  · obtain ⟨d, m, h1, h2, h3⟩ := C112_inundation sqrt ground n files hf i hi
    obtain ⟨d', m', h1', h2', h3'⟩ := C112_inundation sqrt ground n files' hf' i hi
    have e : ∀ w z uh vh, Seen files' i w z uh vh ↔ Seen files i w z uh vh := by
      intro w z uh vh
      unfold Seen
      simp only [hp.mem_iff]
    simp only [e] at h2' h3'
    rw [h1, h1', h2.unique h2', h3.unique h3']
  · rw [List.getElem?_eq_none (by rw [len files hf]; omega), List.getElem?_eq_none (by rw [len files' hf']; omega)]

/-- **C112.** The files which are read are those of the directory with a name that ends in `.sww` and contains the base name. -/
theorem C112_files (base : List Char) (hb : ¬ ".sww".toList <:+ base) (dir l : List (List Char)) (h : chosen base dir = some l) :
    l ≠ [] ∧ ∀ x, x ∈ l ↔ x ∈ dir ∧ base <:+: x ∧ ".sww".toList <:+ x := by
  have suf : ∀ x : List Char, lastFour x = ".sww".toList ↔ ".sww".toList <:+ x := by
    intro x
    unfold lastFour
    constructor
    · intro h; rw [← h]; exact List.drop_suffix _ _
    · intro h
      have h4 : (".sww".toList).length = 4 := rfl
      have := List.suffix_iff_eq_drop.mp h
      rw [h4] at this
      exact this.symm
  have inf : ∀ x : List Char, isIn base x = true ↔ base <:+: x := by
    intro x
    induction x with
    | nil => simp [isIn]
    | cons c x ih =>
      rw [isIn, Bool.or_eq_true, ih, List.infix_cons_iff, List.isPrefixOf_iff_prefix]
  unfold chosen at h
  simp only [if_neg (fun e => hb ((suf base).mp e))] at h
  by_cases he : (dir.filter fun x => isIn base x && decide (lastFour x = ".sww".toList)).length = 0
  · rw [if_pos he] at h; cases h
  · rw [if_neg he] at h
    injection h with h
    rw [← h]
    refine ⟨fun e => he (by rw [e]; rfl), fun x => ?_⟩
    rw [List.mem_filter, Bool.and_eq_true, inf, decide_eq_true_iff, suf]

theorem doubleBrick_sorted : (doubleBrick (K := K)).Pairwise fun a b => a.1 < b.1 ∧ a.2 ≤ b.2 := by
  unfold doubleBrick
  simp only [List.pairwise_cons, List.mem_cons, List.not_mem_nil, or_false, forall_eq_or_imp, forall_eq]
  norm_num

theorem brickVeneer_sorted : (brickVeneer (K := K)).Pairwise fun a b => a.1 < b.1 ∧ a.2 ≤ b.2 := by
  unfold brickVeneer
  simp only [List.pairwise_cons, List.mem_cons, List.not_mem_nil, or_false, forall_eq_or_imp, forall_eq]
  norm_num

theorem contents_sorted : (contentsCurve (K := K)).Pairwise fun a b => a.1 < b.1 ∧ a.2 ≤ b.2 := by
  unfold contentsCurve
  simp only [List.pairwise_cons, List.mem_cons, List.not_mem_nil, or_false, forall_eq_or_imp, forall_eq]
  norm_num

theorem structCurve_sorted (wall : String) : (structCurve (K := K) wall).Pairwise fun a b => a.1 < b.1 ∧ a.2 ≤ b.2 := by
  unfold structCurve
  by_cases h : wall = "Double Brick"
  · rw [if_pos h]; exact doubleBrick_sorted
  · rw [if_neg h]; exact brickVeneer_sorted

theorem interp_struct (wall : String) (x v : K) : interp (structCurve wall) x = some v ↔ Line (structCurve wall) x v :=
  interp_line _ ((structCurve_sorted wall).imp And.left) x v

theorem interp_contents (x v : K) : interp contentsCurve x = some v ↔ Line contentsCurve x v :=
  interp_line _ (contents_sorted.imp And.left) x v

theorem damage_some (h : House K) : (∃ r, damage h = some r) ↔ h.depth ≤ 1000 := by
  unfold damage
  by_cases h0 : 0 > h.depth
  · rw [if_pos h0]
    exact ⟨fun _ => by linarith, fun _ => ⟨_, rfl⟩⟩
  · rw [if_neg h0]
    have h0' := not_lt.mp h0
    have last : ∀ (l : List (K × K)), l.Pairwise (fun a b => a.1 < b.1 ∧ a.2 ≤ b.2) → (∃ a b y, l = ((-1000, a) :: b) ++ [(1000, y)]) →
        ((∃ v, interp l h.depth = some v) ↔ h.depth ≤ 1000) := by
      rintro l hs ⟨a, b, y, rfl⟩
      constructor
      · rintro ⟨v, hv⟩
        rw [interp_line _ (hs.imp And.left)] at hv
        obtain ⟨a', p, q, b', e, -, hq, -⟩ := hv
        have hm : q ∈ ((-1000, a) :: b) ++ [(1000, y)] := by rw [e]; simp
        rcases List.mem_append.mp hm with hm | hm
        · have := (List.pairwise_append.mp hs).2.2 q hm (1000, y) (List.mem_singleton.mpr rfl)
          linarith [this.1]
        · rw [List.mem_singleton.mp hm] at hq; exact hq
      · intro hx
        rw [List.cons_append, interp, if_neg (by simp only [not_lt]; linarith)]
        exact interpFrom_some _ _ _ ⟨(1000, y), by simp, hx⟩
    have h1 := last (structCurve h.wall) (structCurve_sorted _) (by
      unfold structCurve
      by_cases hw : h.wall = "Double Brick"
      · rw [if_pos hw]; exact ⟨0, doubleBrick.tail.dropLast, 647 / 10, rfl⟩
      · rw [if_neg hw]; exact ⟨0, brickVeneer.tail.dropLast, 694 / 10, rfl⟩)
    have h2 := last contentsCurve contents_sorted ⟨0, contentsCurve.tail.dropLast, 986 / 10, rfl⟩
    constructor
    · rintro ⟨r, hr⟩
      cases h3 : interp (structCurve h.wall) h.depth with
      | none => rw [h3] at hr; cases hr
      | some v => exact h1.mp ⟨v, h3⟩
    · intro hx
      obtain ⟨v, hv⟩ := h1.mpr hx
      obtain ⟨w, hw⟩ := h2.mpr hx
      rw [hv, hw]
      exact ⟨_, rfl⟩

/-- For depths from 0 on only the points from 0 on matter. -/
theorem line_tail (a b c : K × K) (l : List (K × K)) (hs : (a :: b :: c :: l).Pairwise fun a b => a.1 < b.1) (x v : K) (hx : c.1 ≤ x)
    (h : interp (a :: b :: c :: l) x = some v) : Line (c :: l) x v ∨ (l = [] ∧ x = c.1 ∧ v = c.2) := by
  obtain ⟨h1, h2⟩ := List.pairwise_cons.mp hs
  obtain ⟨h3, h4⟩ := List.pairwise_cons.mp h2
  have hbc := h3 c List.mem_cons_self
  have hab := h1 b List.mem_cons_self
  rw [interp, if_neg (by linarith), interpFrom, if_neg (by linarith), interpFrom] at h
  by_cases e : x ≤ c.1
  · have e' : x = c.1 := le_antisymm e hx
    rw [if_pos e] at h
    injection h with h
    have hv : v = c.2 := by
      rw [← h, e', div_mul_cancel₀ _ (sub_ne_zero.mpr (ne_of_gt hbc))]
      ring
    cases l with
    | nil => exact Or.inr ⟨rfl, e', hv⟩
    | cons d l =>
      refine Or.inl ⟨[], c, d, l, rfl, hx, ?_, ?_⟩
      · rw [e']; exact ((List.pairwise_cons.mp h4).1 d List.mem_cons_self).le
      · rw [hv, e']; ring
  · rw [if_neg e] at h
    exact Or.inl ((interpFrom_line c l h4 x v hx).mp h)

theorem doubleBrick_curve : (doubleBrick (K := K)) = (-1000, 0) :: (-(1 / 10 ^ 12), 0) :: curve brickTable := by
  unfold doubleBrick curve brickTable
  simp only [List.map_cons, List.map_nil]
  norm_num

theorem brickVeneer_curve : (brickVeneer (K := K)) = (-1000, 0) :: (-(1 / 10 ^ 12), 0) :: curve veneerTable := by
  unfold brickVeneer curve veneerTable
  simp only [List.map_cons, List.map_nil]
  norm_num

theorem contents_curve : (contentsCurve (K := K)) = (-1000, 0) :: (-(1 / 10 ^ 12), 0) :: curve contentsTable := by
  unfold contentsCurve curve contentsTable
  simp only [List.map_cons, List.map_nil]
  norm_num

theorem struct_curve (wall : String) : (structCurve (K := K) wall) = (-1000, 0) :: (-(1 / 10 ^ 12), 0) :: curve (structTable wall) := by
  unfold structCurve structTable
  by_cases h : wall = "Double Brick"
  · rw [if_pos h, if_pos h, doubleBrick_curve]
  · rw [if_neg h, if_neg h, brickVeneer_curve]

theorem tail_of {l : List (K × K)} (hl : l.Pairwise fun a b => a.1 < b.1 ∧ a.2 ≤ b.2) (a b : K × K) (c d : ℤ × ℤ) (t : List (ℤ × ℤ))
    (e : l = a :: b :: curve (c :: d :: t)) (hc : c.1 = 0) (x v : K) (hx : 0 ≤ x) (h : interp l x = some v) : Line (curve (c :: d :: t)) x v := by
  subst e
  have hl' : (a :: b :: curve (c :: d :: t)).Pairwise fun a b => a.1 < b.1 := hl.imp And.left
  rcases line_tail a b _ _ hl' x v (by simp only [hc]; simpa using hx) h with h | ⟨h, -⟩
  · exact h
  · simp at h

theorem damage_cases (h : House K) (s c : K) (b : Bool) (e : damage h = some (s, c, b)) :
    b = decide (0 ≤ h.depth) ∧ (h.depth < 0 → s = 0 ∧ c = 0) ∧
      (0 ≤ h.depth → Line (curve (structTable h.wall)) h.depth s ∧ Line (curve contentsTable) h.depth c) := by
  unfold damage at e
  by_cases h0 : 0 > h.depth
  · rw [if_pos h0] at e
    simp only [Option.some.injEq, Prod.mk.injEq] at e
    obtain ⟨rfl, rfl, rfl⟩ := e
    refine ⟨by simpa using h0, fun _ => ⟨rfl, rfl⟩, fun h => absurd h (not_le.mpr h0)⟩
  · rw [if_neg h0] at e
    cases h1 : interp (structCurve h.wall) h.depth with
    | none => rw [h1] at e; cases e
    | some v =>
      cases h2 : interp contentsCurve h.depth with
      | none => rw [h1, h2] at e; cases e
      | some w =>
        rw [h1, h2] at e
        simp only [Option.some.injEq, Prod.mk.injEq] at e
        obtain ⟨rfl, rfl, rfl⟩ := e
        refine ⟨by simpa using h0, fun h => absurd h h0, fun h3 => ⟨?_, ?_⟩⟩
        · have hc := struct_curve (K := K) h.wall
          have hs := structCurve_sorted (K := K) h.wall
          unfold structTable at hc ⊢
          by_cases hw : h.wall = "Double Brick"
          · rw [if_pos hw] at hc ⊢
            exact tail_of hs _ _ _ _ _ hc rfl _ _ h3 h1
          · rw [if_neg hw] at hc ⊢
            exact tail_of hs _ _ _ _ _ hc rfl _ _ h3 h1
        · exact tail_of contents_sorted _ _ _ _ _ contents_curve rfl _ _ h3 h2

end Verif.Damage
