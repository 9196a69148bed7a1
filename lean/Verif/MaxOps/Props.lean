import Verif.MaxOps.Spec

/-! C105: the maxima collected during a run. -/

namespace Verif.MaxOps

variable {n : ℕ}

theorem after_snoc (start : ℝ) (l : List (ℝ × State n)) (c : ℝ × State n) :
    after start (l ++ [c]) = after start l + if start < c.1 then 1 else 0 := by
  unfold after
  rw [List.filter_append, List.length_append]
  congr 1
  by_cases h : start < c.1 <;> simp [h]

theorem sampled_snoc (start : ℝ) (m : ℕ) (l : List (ℝ × State n)) (c : ℝ × State n) (q : State n) :
    Sampled start m (l ++ [c]) q ↔ Sampled start m l q ∨ (q = c.2 ∧ start < c.1 ∧ m ∣ after start l + 1) := by
  constructor
  · rintro ⟨k, t, hk, ht, hm⟩
    by_cases hlt : k < l.length
    · rw [List.getElem?_append_left hlt] at hk
      rw [List.take_append_of_le_length hlt] at hm
      exact .inl ⟨k, t, hk, ht, hm⟩
    · have hk' : k = l.length := by
        have := (List.getElem?_eq_some_iff.mp hk).1
        rw [List.length_append, List.length_singleton] at this
        omega
      subst hk'
      rw [List.getElem?_append_right le_rfl, Nat.sub_self] at hk
      simp only [List.getElem?_cons_zero, Option.some.injEq] at hk
      subst hk
      rw [List.take_of_length_le (by simp), after_snoc, if_pos ht] at hm
      exact .inr ⟨rfl, ht, hm⟩
  · rintro (⟨k, t, hk, ht, hm⟩ | ⟨rfl, ht, hm⟩)
    · have hlt := (List.getElem?_eq_some_iff.mp hk).1
      exact ⟨k, t, by rw [List.getElem?_append_left hlt]; exact hk, ht, by rw [List.take_append_of_le_length hlt]; exact hm⟩
    · refine ⟨l.length, c.1, by simp, ht, ?_⟩
      rw [List.take_of_length_le (by simp), after_snoc, if_pos ht]
      exact hm

theorem greatest_snoc {init : ℝ} {P P' : State n → Prop} {f : State n → ℝ} {v : ℝ} (c : State n) (h : GreatestOf init P f v) (hP : ∀ q, P' q ↔ P q ∨ q = c) :
    GreatestOf init P' f (max v (f c)) := by
  constructor
  · rcases le_total v (f c) with hl | hl
    · rw [max_eq_right hl]
      exact .inr ⟨c, (hP c).mpr (.inr rfl), rfl⟩
    · rw [max_eq_left hl]
      rcases h.1 with h1 | ⟨q, h1, h2⟩
      · exact .inl h1
      · exact .inr ⟨q, (hP q).mpr (.inl h1), h2⟩
  · rintro x (rfl | ⟨q, h1, rfl⟩)
    · exact le_trans (h.2 (.inl rfl)) (le_max_left _ _)
    · rcases (hP q).mp h1 with h2 | rfl
      · exact le_trans (h.2 (.inr ⟨q, h2, rfl⟩)) (le_max_left _ _)
      · exact le_max_right _ _

theorem greatest_congr {init : ℝ} {P P' : State n → Prop} {f : State n → ℝ} {v : ℝ} (h : GreatestOf init P f v) (hP : ∀ q, P' q ↔ P q) :
    GreatestOf init P' f v := by
  unfold GreatestOf at h ⊢
  simp only [hP]
  exact h

/-- The invariant of a run. -/
structure Inv (o0 : Op n) (m : ℕ) (l : List (ℝ × State n)) (o : Op n) : Prop where
  freq : o.freq = m
  start : o.start = o0.start
  zeroH : o.zeroH = o0.zeroH
  minH : o.minH = o0.minH
  counter : o.counter = after o0.start l % m
  stage : ∀ i, GreatestOf (-maxFloat) (Sampled o0.start m l) (fun q => (q i).stage) (o.stage i)
  depth : ∀ i, GreatestOf 0 (Sampled o0.start m l) (fun q => max ((q i).stage - (q i).elev) o0.minH) (o.depth i)
  speed : ∀ i, GreatestOf 0 (Sampled o0.start m l)
    (fun q => Real.sqrt ((q i).xmom ^ 2 + (q i).ymom ^ 2) / max ((q i).stage - (q i).elev) o0.minH * (if max ((q i).stage - (q i).elev) o0.minH > o0.zeroH then 1 else 0))
    (o.speed i)
  speedDepth : ∀ i, GreatestOf 0 (Sampled o0.start m l) (fun q => Real.sqrt ((q i).xmom ^ 2 + (q i).ymom ^ 2)) (o.speedDepth i)

theorem inv_step {o0 : Op n} {m : ℕ} (hm : 0 < m) {l : List (ℝ × State n)} {o : Op n} (I : Inv o0 m l o) (c : ℝ × State n) :
    Inv o0 m (l ++ [c]) (call o c.1 c.2) := by
  unfold call
  by_cases ht : c.1 > o.start
  · rw [if_pos ht]
    have ht' : o0.start < c.1 := by rw [← I.start]; exact ht
    simp only
    have hcount : after o0.start (l ++ [c]) = after o0.start l + 1 := by rw [after_snoc, if_pos ht']
    by_cases he : ((o.counter + 1 : ℕ) : ℝ) = o.freq
    · rw [if_pos he]
      have hdvd : m ∣ after o0.start l + 1 := by
        have : o.counter + 1 = m := by rw [I.freq] at he; exact_mod_cast he
        rw [I.counter] at this
        refine ⟨after o0.start l / m + 1, ?_⟩
        have := Nat.div_add_mod (after o0.start l) m
        rw [mul_add]
        omega
      have hP : ∀ q, Sampled o0.start m (l ++ [c]) q ↔ Sampled o0.start m l q ∨ q = c.2 := by
        intro q
        rw [sampled_snoc]
        constructor
        · rintro (h | ⟨h, _⟩)
          · exact .inl h
          · exact .inr h
        · rintro (h | h)
          · exact .inl h
          · exact .inr ⟨h, ht', hdvd⟩
      refine ⟨I.freq, I.start, I.zeroH, I.minH, ?_, ?_, ?_, ?_, ?_⟩
      · rw [hcount]; exact (Nat.mod_eq_zero_of_dvd hdvd).symm
      · intro i; exact greatest_snoc c.2 (I.stage i) hP
      · intro i
        have := greatest_snoc c.2 (I.depth i) hP
        rw [← I.minH] at this ⊢
        exact this
      · intro i
        have := greatest_snoc c.2 (I.speed i) hP
        rw [← I.minH, ← I.zeroH] at this ⊢
        exact this
      · intro i; exact greatest_snoc c.2 (I.speedDepth i) hP
    · rw [if_neg he]
      have hlt : after o0.start l % m + 1 < m := by
        have h1 := Nat.mod_lt (after o0.start l) hm
        have h2 : after o0.start l % m + 1 ≠ m := by
          intro e
          apply he
          rw [I.freq, I.counter, e]
        omega
      have hdvd : ¬ m ∣ after o0.start l + 1 := by
        intro hd
        have := Nat.mod_eq_zero_of_dvd hd
        rw [Nat.add_mod, Nat.mod_eq_of_lt (show 1 < m by omega), Nat.mod_eq_of_lt hlt] at this
        omega
      have hP : ∀ q, Sampled o0.start m (l ++ [c]) q ↔ Sampled o0.start m l q := by
        intro q
        rw [sampled_snoc]
        exact ⟨fun h => h.resolve_right (fun h => hdvd h.2.2), .inl⟩
      refine ⟨I.freq, I.start, I.zeroH, I.minH, ?_, fun i => greatest_congr (I.stage i) hP, fun i => greatest_congr (I.depth i) hP,
        fun i => greatest_congr (I.speed i) hP, fun i => greatest_congr (I.speedDepth i) hP⟩
      rw [hcount, Nat.add_mod, Nat.mod_eq_of_lt (show 1 < m by omega), Nat.mod_eq_of_lt hlt]
      show o.counter + 1 = _
      rw [I.counter]
  · rw [if_neg ht]
    have ht' : ¬ o0.start < c.1 := by rw [← I.start]; exact ht
    have hP : ∀ q, Sampled o0.start m (l ++ [c]) q ↔ Sampled o0.start m l q := by
      intro q
      rw [sampled_snoc]
      exact ⟨fun h => h.resolve_right (fun h => ht' h.2.1), .inl⟩
    refine ⟨I.freq, I.start, I.zeroH, I.minH, ?_, fun i => greatest_congr (I.stage i) hP, fun i => greatest_congr (I.depth i) hP,
        fun i => greatest_congr (I.speed i) hP, fun i => greatest_congr (I.speedDepth i) hP⟩
    rw [after_snoc, if_neg ht', Nat.add_zero, I.counter]

theorem inv_calls {o0 : Op n} {m : ℕ} (hm : 0 < m) (l0 : List (ℝ × State n)) (o : Op n) (I : Inv o0 m l0 o) (l : List (ℝ × State n)) :
    Inv o0 m (l0 ++ l) (calls o l) := by
  induction l generalizing l0 o with
  | nil => rw [List.append_nil]; exact I
  | cons c l ih =>
    have := ih (l0 ++ [c]) _ (inv_step hm I c)
    rw [List.append_assoc] at this
    exact this

theorem inv_run {minH : ℝ} {m : ℕ} (hm : 0 < m) {start : ℝ} {zeroH : Option ℝ} {o : Op n} (h : mk n minH m start zeroH = some o) (l : List (ℝ × State n)) :
    Inv o m l (calls o l) ∧ o.start = start ∧ o.minH = minH ∧ o.zeroH = zeroH.getD minH := by
  unfold mk at h
  split_ifs at h with hf
  simp only [Option.some.injEq] at h
  subst h
  refine ⟨?_, rfl, rfl, rfl⟩
  have hno : ∀ start q, ¬ Sampled start m ([] : List (ℝ × State n)) q := by
    rintro start q ⟨k, t, hk, _⟩
    simp at hk
  have g : ∀ (init start : ℝ) (f : State n → ℝ), GreatestOf init (Sampled start m []) f init := by
    intro init start f
    refine ⟨.inl rfl, ?_⟩
    rintro x (rfl | ⟨q, hq, _⟩)
    · exact le_rfl
    · exact absurd hq (hno _ _)
  have := inv_calls hm (o0 := { freq := (m : ℝ), start := start, zeroH := zeroH.getD minH, minH := minH, counter := 0, stage := fun _ => 0 - maxFloat, depth := fun _ => 0, speed := fun _ => 0, speedDepth := fun _ => 0 }) [] _ ⟨rfl, rfl, rfl, rfl, by simp [after], fun i => by
      show GreatestOf _ _ _ (0 - maxFloat)
      rw [zero_sub]
      exact g _ _ _, fun i => g _ _ _, fun i => g _ _ _, fun i => g _ _ _⟩ l
  rwa [List.nil_append] at this

/-- C105: after any calls the greatest stage, and the greatest momentum per width, are those of the calls collected: every `m`-th call of those later
than the start. Before the first of them they are `-max_float` and zero. -/
theorem C105_maxima {minH : ℝ} {m : ℕ} (hm : 0 < m) {start : ℝ} {zeroH : Option ℝ} {o : Op n} (h : mk n minH m start zeroH = some o) (l : List (ℝ × State n)) (i : Fin n) :
    GreatestOf (-maxFloat) (Sampled start m l) (fun q => (q i).stage) ((calls o l).stage i) ∧
    GreatestOf 0 (Sampled start m l) (fun q => Real.sqrt ((q i).xmom ^ 2 + (q i).ymom ^ 2)) ((calls o l).speedDepth i) ∧
    GreatestOf 0 (Sampled start m l) (fun q => max ((q i).stage - (q i).elev) minH) ((calls o l).depth i) := by
  obtain ⟨I, e1, e2, _⟩ := inv_run hm h l
  have a := I.stage i
  have b := I.speedDepth i
  have c := I.depth i
  rw [e1] at a b c
  rw [e2] at c
  exact ⟨a, b, c⟩

/-- C105: the greatest speed is that of the collected calls, where water not deeper than the height given counts as still; by default, and whenever that height is at
least the minimum height (which is positive or zero). -/
theorem C105_speed {minH : ℝ} {m : ℕ} (hm : 0 < m) {start : ℝ} {zeroH : Option ℝ} {o : Op n} (h : mk n minH m start zeroH = some o)
    (hz : minH ≤ zeroH.getD minH) (l : List (ℝ × State n)) (i : Fin n) :
    GreatestOf 0 (Sampled start m l) (fun q => speedOf (zeroH.getD minH) (q i)) ((calls o l).speed i) := by
  obtain ⟨I, e1, e2, e3⟩ := inv_run hm h l
  have a := I.speed i
  rw [e1, e2, e3] at a
  have hf : (fun q : State n => Real.sqrt ((q i).xmom ^ 2 + (q i).ymom ^ 2) / max ((q i).stage - (q i).elev) minH *
      (if max ((q i).stage - (q i).elev) minH > zeroH.getD minH then 1 else 0)) = fun q => speedOf (zeroH.getD minH) (q i) := by
    funext q
    unfold speedOf
    by_cases hd : zeroH.getD minH < (q i).stage - (q i).elev
    · have hmx : max ((q i).stage - (q i).elev) minH = (q i).stage - (q i).elev := max_eq_left (by linarith)
      rw [hmx, if_pos hd, if_pos hd, mul_one]
    · rw [if_neg hd, if_neg (by simp only [gt_iff_lt, not_lt]; exact max_le (not_lt.mp hd) hz), mul_zero]
  rw [hf] at a
  exact a

/-- Disagreement: with a smaller height, a dry triangle with momentum left in it is given the speed that momentum has in water of the minimum height. -/
theorem C105_speed_of_dry {minH z : ℝ} {o : Op n} (h : mk n minH 1 0 (some z) = some o) (hz : z < minH) (t : ℝ) (ht : 0 < t) (q : State n) (i : Fin n)
    (hdry : (q i).stage ≤ (q i).elev) (h0 : 0 < minH) : (calls o [(t, q)]).speed i = Real.sqrt ((q i).xmom ^ 2 + (q i).ymom ^ 2) / minH := by
  unfold mk at h
  rw [if_pos (by norm_num)] at h
  simp only [Option.some.injEq, Option.getD_some] at h
  subst h
  have hmx : max ((q i).stage - (q i).elev) minH = minH := max_eq_right (by linarith)
  simp only [calls, List.foldl_cons, List.foldl_nil, call, collect]
  rw [if_pos ht]
  norm_num
  rw [hmx, if_pos (.inr hz)]
  exact max_eq_right (by positivity)

/-- C105: once a call was collected the greatest depth is at least the minimum height, in every triangle, and it is the greatest depth if that is
more. Disagreement: triangles which stay dry are given the minimum height. -/
theorem C105_depth {minH : ℝ} (hH : 0 ≤ minH) {m : ℕ} (hm : 0 < m) {start : ℝ} {zeroH : Option ℝ} {o : Op n} (h : mk n minH m start zeroH = some o)
    (l : List (ℝ × State n)) (i : Fin n) (q0 : State n) (hq0 : Sampled start m l q0) :
    ((∀ q, Sampled start m l q → (q i).stage - (q i).elev ≤ minH) → (calls o l).depth i = minH) ∧
    ∀ q, Sampled start m l q → minH ≤ (q i).stage - (q i).elev → (∀ q', Sampled start m l q' → (q' i).stage - (q' i).elev ≤ (q i).stage - (q i).elev) →
      (calls o l).depth i = (q i).stage - (q i).elev := by
  obtain ⟨_, _, g⟩ := C105_maxima hm h l i
  constructor
  · intro hd
    apply le_antisymm
    · rcases g.1 with e | ⟨q, h1, h2⟩
      · rw [e]; exact hH
      · rw [h2]; exact max_le (hd q h1) le_rfl
    · refine le_trans ?_ (g.2 (.inr ⟨q0, hq0, rfl⟩))
      exact le_max_right _ _
  · intro q hq hmin hgr
    apply le_antisymm
    · rcases g.1 with e | ⟨q', h1, h2⟩
      · rw [e]; linarith
      · rw [h2]; exact max_le (hgr q' h1) hmin
    · refine le_trans ?_ (g.2 (.inr ⟨q, hq, rfl⟩))
      exact le_max_left _ _

/-- C105: with frequency 1 every call after the start is collected. -/
theorem C105_every_call (start : ℝ) (l : List (ℝ × State n)) (q : State n) : Sampled start 1 l q ↔ ∃ t, (t, q) ∈ l ∧ start < t := by
  constructor
  · rintro ⟨k, t, hk, ht, _⟩
    exact ⟨t, List.mem_of_getElem? hk, ht⟩
  · rintro ⟨t, hl, ht⟩
    obtain ⟨k, hk⟩ := List.mem_iff_getElem?.mp hl
    exact ⟨k, t, hk, ht, one_dvd _⟩

/-- Disagreement: a frequency which is not a whole number is accepted if positive, and then nothing is ever collected. -/
theorem C105_fraction {minH freq : ℝ} (hf : 0 < freq) (hn : ∀ k : ℕ, (k : ℝ) ≠ freq) (start : ℝ) (zeroH : Option ℝ) :
    ∃ o, mk n minH freq start zeroH = some o ∧ ∀ l : List (ℝ × State n), ∀ i, (calls o l).stage i = -maxFloat ∧ (calls o l).depth i = 0 ∧ (calls o l).speed i = 0 ∧
      (calls o l).speedDepth i = 0 := by
  refine ⟨_, by unfold mk; rw [if_pos hf], ?_⟩
  intro l
  have key : ∀ (l : List (ℝ × State n)) (o : Op n), o.freq = freq →
      (calls o l).stage = o.stage ∧ (calls o l).depth = o.depth ∧ (calls o l).speed = o.speed ∧ (calls o l).speedDepth = o.speedDepth := by
    intro l
    induction l with
    | nil => intro o _; exact ⟨rfl, rfl, rfl, rfl⟩
    | cons c l ih =>
      intro o ho
      have hc : calls o (c :: l) = calls (call o c.1 c.2) l := rfl
      rw [hc]
      have h1 : (call o c.1 c.2).freq = freq ∧ (call o c.1 c.2).stage = o.stage ∧ (call o c.1 c.2).depth = o.depth ∧ (call o c.1 c.2).speed = o.speed ∧
          (call o c.1 c.2).speedDepth = o.speedDepth := by
        unfold call
        by_cases ht : c.1 > o.start
        · rw [if_pos ht]
          simp only
          rw [if_neg (by rw [ho]; exact hn _)]
          exact ⟨ho, rfl, rfl, rfl, rfl⟩
        · rw [if_neg ht]; exact ⟨ho, rfl, rfl, rfl, rfl⟩
      obtain ⟨a, b, c', d, e⟩ := h1
      obtain ⟨r1, r2, r3, r4⟩ := ih _ a
      exact ⟨r1.trans b, r2.trans c', r3.trans d, r4.trans e⟩
  obtain ⟨r1, r2, r3, r4⟩ := key l { freq := freq, start := start, zeroH := zeroH.getD minH, minH := minH, counter := 0, stage := fun _ => 0 - maxFloat, depth := fun _ => 0, speed := fun _ => 0, speedDepth := fun _ => 0 } rfl
  intro i
  rw [r1, r2, r3, r4]
  simp

/-- C105: maxima never fall during a run. -/
theorem C105_grow (o : Op n) (l l' : List (ℝ × State n)) (i : Fin n) :
    (calls o l).stage i ≤ (calls o (l ++ l')).stage i ∧ (calls o l).depth i ≤ (calls o (l ++ l')).depth i ∧
    (calls o l).speed i ≤ (calls o (l ++ l')).speed i ∧ (calls o l).speedDepth i ≤ (calls o (l ++ l')).speedDepth i := by
  have h1 : ∀ (o : Op n) t q, o.stage i ≤ (call o t q).stage i ∧ o.depth i ≤ (call o t q).depth i ∧ o.speed i ≤ (call o t q).speed i ∧
      o.speedDepth i ≤ (call o t q).speedDepth i := by
    intro o t q
    unfold call
    by_cases ht : t > o.start
    · rw [if_pos ht]
      simp only
      split_ifs
      · exact ⟨le_max_left _ _, le_max_left _ _, le_max_left _ _, le_max_left _ _⟩
      · exact ⟨le_rfl, le_rfl, le_rfl, le_rfl⟩
    · rw [if_neg ht]; exact ⟨le_rfl, le_rfl, le_rfl, le_rfl⟩
  have key : ∀ (l : List (ℝ × State n)) (o : Op n), o.stage i ≤ (calls o l).stage i ∧ o.depth i ≤ (calls o l).depth i ∧ o.speed i ≤ (calls o l).speed i ∧
      o.speedDepth i ≤ (calls o l).speedDepth i := by
    intro l
    induction l with
    | nil => intro o; exact ⟨le_rfl, le_rfl, le_rfl, le_rfl⟩
    | cons c l ih =>
      intro o
      obtain ⟨a, b, c', d⟩ := h1 o c.1 c.2
      obtain ⟨a', b', c'', d'⟩ := ih (call o c.1 c.2)
      exact ⟨a.trans a', b.trans b', c'.trans c'', d.trans d'⟩
  have : calls o (l ++ l') = calls (calls o l) l' := List.foldl_append ..
  rw [this]
  exact key l' _

/-- C105: the greatest momentum is at most the product of greatest speed and greatest depth, if water not deeper than the height had no momentum. -/
theorem C105_product {minH : ℝ} (hH : 0 < minH) {m : ℕ} (hm : 0 < m) {start : ℝ} {zeroH : Option ℝ} {o : Op n} (h : mk n minH m start zeroH = some o)
    (hz : minH ≤ zeroH.getD minH) (l : List (ℝ × State n)) (i : Fin n)
    (hw : ∀ q, Sampled start m l q → zeroH.getD minH < (q i).stage - (q i).elev ∨ ((q i).xmom = 0 ∧ (q i).ymom = 0)) :
    (calls o l).speedDepth i ≤ (calls o l).speed i * (calls o l).depth i := by
  obtain ⟨_, g2, g3⟩ := C105_maxima hm h l i
  have g1 := C105_speed hm h hz l i
  have s0 : 0 ≤ (calls o l).speed i := g1.2 (.inl rfl)
  have d0 : 0 ≤ (calls o l).depth i := g3.2 (.inl rfl)
  rcases g2.1 with e | ⟨q, hq, e⟩
  · rw [e]; positivity
  · rw [e]
    rcases hw q hq with hd | ⟨hx, hy⟩
    · have hs := g1.2 (.inr ⟨q, hq, rfl⟩)
      have hdp := g3.2 (.inr ⟨q, hq, rfl⟩)
      simp only at hdp
      have hpos : 0 < (q i).stage - (q i).elev := by linarith
      unfold speedOf at hs
      beta_reduce at hs
      rw [if_pos hd] at hs
      have hle : (q i).stage - (q i).elev ≤ (calls o l).depth i := le_trans (le_max_left _ _) hdp
      calc Real.sqrt ((q i).xmom ^ 2 + (q i).ymom ^ 2)
          = Real.sqrt ((q i).xmom ^ 2 + (q i).ymom ^ 2) / ((q i).stage - (q i).elev) * ((q i).stage - (q i).elev) := by field_simp
        _ ≤ _ := mul_le_mul hs hle hpos.le s0
    · simp only [hx, hy]
      norm_num
      positivity

/-! ### Runs -/

/-- Disagreement: in a run from time 0 by Euler's method the values after the first step are not collected, as the clock still is at zero; by the
other methods they are. -/
theorem C105_first_step (q : State n) (dt : ℝ) (hdt : 0 < dt) (m : Method) :
    (∃ q', Sampled 0 1 (callsOf m 0 [(dt, q)]) q') ↔ m ≠ .euler := by
  rw [show (∃ q', Sampled 0 1 (callsOf m 0 [(dt, q)]) q') ↔ ∃ q' t, (t, q') ∈ callsOf m 0 [(dt, q)] ∧ 0 < t by
    simp only [C105_every_call]]
  simp only [callsOf, clock, List.mem_singleton, Prod.mk.injEq]
  constructor
  · rintro ⟨_, t, ⟨h1, _⟩, h2⟩ rfl
    rw [if_pos rfl] at h1
    linarith
  · intro hm
    exact ⟨q, dt, ⟨by rw [if_neg hm, zero_add], rfl⟩, hdt⟩

/-- C105: which steps of a run are collected with frequency 1: by Euler's method those begun after the start, by the others those ended after it. -/
theorem C105_steps (m : Method) (t : ℝ) (steps : List (ℝ × State n)) (start : ℝ) (q : State n) :
    Sampled start 1 (callsOf m t steps) q ↔ ∃ (k : ℕ) (dt : ℝ), steps[k]? = some (dt, q) ∧
      start < t + ((steps.take k).map Prod.fst).sum + (if m = .euler then 0 else dt) := by
  rw [C105_every_call]
  induction steps generalizing t with
  | nil => simp [callsOf]
  | cons s steps ih =>
    obtain ⟨d, q'⟩ := s
    unfold callsOf
    constructor
    · rintro ⟨x, hx, hs⟩
      rcases List.mem_cons.mp hx with e | hx
      · simp only [Prod.mk.injEq] at e
        obtain ⟨rfl, rfl⟩ := e
        refine ⟨0, d, rfl, ?_⟩
        unfold clock at hs
        split_ifs at hs ⊢ <;> simpa using hs
      · obtain ⟨k, dt, h1, h2⟩ := (ih (t + d)).mp ⟨x, hx, hs⟩
        refine ⟨k + 1, dt, by rw [List.getElem?_cons_succ]; exact h1, ?_⟩
        rw [List.take_succ_cons, List.map_cons, List.sum_cons]
        linarith
    · rintro ⟨k, dt, h1, h2⟩
      cases k with
      | zero =>
        simp only [List.getElem?_cons_zero, Option.some.injEq, Prod.mk.injEq] at h1
        obtain ⟨rfl, rfl⟩ := h1
        refine ⟨clock m t d, List.mem_cons_self .., ?_⟩
        unfold clock
        split_ifs at h2 ⊢ <;> simpa using h2
      | succ k =>
        rw [List.getElem?_cons_succ] at h1
        rw [List.take_succ_cons, List.map_cons, List.sum_cons] at h2
        obtain ⟨x, hx, hs⟩ := (ih (t + d)).mpr ⟨k, dt, h1, by linarith⟩
        exact ⟨x, List.mem_cons_of_mem _ hx, hs⟩

end Verif.MaxOps
