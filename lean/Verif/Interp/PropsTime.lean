import Verif.Interp.Spec

/-! # C62: interpolation in time -/

namespace Verif.Interp

set_option linter.unusedSectionVars false

variable {K : Type*} [Field K] [LinearOrder K] [IsStrictOrderedRing K]

/-- Times do not decrease. -/
def Increasing (T : List K) : Prop := ∀ (i j : ℕ) (a b : K), i ≤ j → T[i]? = some a → T[j]? = some b → a ≤ b

/-- Times strictly increase. -/
def StrictlyIncreasing (T : List K) : Prop := ∀ (i j : ℕ) (a b : K), i < j → T[i]? = some a → T[j]? = some b → a < b

theorem StrictlyIncreasing.le {T : List K} (h : StrictlyIncreasing T) : Increasing T := by
  intro i j a b hij ha hb
  rcases Nat.lt_or_eq_of_le hij with h1 | rfl
  · exact (h i j a b h1 ha hb).le
  · rw [ha] at hb
    exact (Option.some.inj hb).le

theorem goUp_spec (t : K) (T : List K) (last : K) (hl : T.getLast? = some last) (ht : t ≤ last) : ∀ n i : ℕ, i < T.length → T.length ≤ n + i →
    ∃ j x, goUp t T (n + 1) i = some j ∧ T[j]? = some x ∧ t ≤ x := by
  intro n
  induction n with
  | zero => intro i h1 h2; omega
  | succ n ih =>
    intro i h1 h2
    have hx : T[i]? = some T[i] := List.getElem?_eq_getElem h1
    unfold goUp
    rw [hx]
    simp only
    by_cases h : t > T[i]
    · rw [if_pos h]
      by_cases hi : i + 1 < T.length
      · exact ih (i + 1) hi (by omega)
      · exfalso
        have e : i = T.length - 1 := by omega
        rw [List.getLast?_eq_getElem?, ← e, hx] at hl
        rw [Option.some.inj hl] at h
        exact absurd h (not_lt.2 ht)
    · rw [if_neg h]
      exact ⟨i, _, rfl, hx, not_lt.1 h⟩

theorem goDown_spec (t : K) (T : List K) (first : K) (hf : T.head? = some first) (ht : first ≤ t) : ∀ (i : ℕ) (y : K), T[i]? = some y →
    ∃ j x, goDown t T i = some j ∧ j ≤ i ∧ T[j]? = some x ∧ x ≤ t ∧ (j = i ∨ ∃ y', T[j + 1]? = some y' ∧ t < y') := by
  intro i
  induction i with
  | zero =>
    intro y hy
    rw [List.head?_eq_getElem?, hy] at hf
    obtain rfl := Option.some.inj hf
    refine ⟨0, y, ?_, le_rfl, hy, ht, Or.inl rfl⟩
    unfold goDown
    rw [hy]
    simp only
    rw [if_neg (not_lt.2 ht)]
  | succ i ih =>
    intro y hy
    unfold goDown
    rw [hy]
    simp only
    by_cases h : t < y
    · rw [if_pos h]
      have hlt : i + 1 < T.length := (List.getElem?_eq_some_iff.1 hy).1
      obtain ⟨j, x, h1, h2, h3, h4, h5⟩ := ih T[i] (List.getElem?_eq_getElem (by omega))
      refine ⟨j, x, h1, by omega, h3, h4, Or.inr ?_⟩
      rcases h5 with rfl | h5
      · exact ⟨y, hy, h⟩
      · exact h5
    · rw [if_neg h]
      exact ⟨i + 1, y, rfl, le_rfl, hy, not_lt.1 h, Or.inl rfl⟩

/-- One call. -/
theorem call_spec (s : Series K) (hi : s.index < s.time.length) (hv : s.time.length ≤ s.values.length) (first last : K)
    (hf : s.time.head? = some first) (hl : s.time.getLast? = some last) (t : K) :
    (t < first → s.call t = .error .early) ∧ (first ≤ t → last < t → s.call t = .error .late) ∧
      (first ≤ t → t ≤ last → ∃ i v, s.call t = .ok ({ s with index := i }, v) ∧ i < s.time.length ∧ LineThrough s.time s.values t v) := by
  refine ⟨fun h => ?_, fun h1 h2 => ?_, fun h1 h2 => ?_⟩
  · unfold Series.call
    rw [hf, hl]
    simp only
    rw [if_pos h]
  · unfold Series.call
    rw [hf, hl]
    simp only
    rw [if_neg (not_lt.2 h1), if_pos h2]
  · obtain ⟨k, y, u1, u2, u3⟩ := goUp_spec t s.time last hl h2 s.time.length s.index hi (by omega)
    obtain ⟨j, x, d1, d2, d3, d4, d5⟩ := goDown_spec t s.time first hf h1 k y u2
    have hjl : j < s.time.length := (List.getElem?_eq_some_iff.1 d3).1
    have hq : s.values[j]? = some (s.values[j]'(by omega)) := List.getElem?_eq_getElem (by omega)
    unfold Series.call
    rw [hf, hl]
    simp only
    rw [if_neg (not_lt.2 h1), if_neg (not_lt.2 h2), u1]
    simp only [d1, d3, hq]
    by_cases he : t = x
    · rw [if_pos he]
      exact ⟨j, _, rfl, hjl, Or.inl ⟨j, by rw [d3, he], hq⟩⟩
    · rw [if_neg he]
      have hlt : x < t := lt_of_le_of_ne d4 fun h => he h.symm
      have hnext : ∃ y', s.time[j + 1]? = some y' ∧ t < y' := by
        rcases d5 with rfl | h
        · rw [d3] at u2
          obtain rfl := Option.some.inj u2
          exact absurd hlt (not_lt.2 u3)
        · exact h
      obtain ⟨y', n1, n2⟩ := hnext
      have hjl' : j + 1 < s.time.length := (List.getElem?_eq_some_iff.1 n1).1
      have hq' : s.values[j + 1]? = some (s.values[j + 1]'(by omega)) := List.getElem?_eq_getElem (by omega)
      have hpos : 0 < (t - x) / (y' - x) := div_pos (by linarith) (by linarith)
      simp only [n1, hq']
      rw [if_pos hpos]
      refine ⟨j, _, rfl, hjl, Or.inr ⟨j, x, y', _, _, d3, n1, hq, hq', hlt, n2, ?_⟩⟩
      have hne : y' - x ≠ 0 := by linarith
      rw [add_sub_cancel_left, mul_right_comm, div_mul_cancel₀ _ hne]
      ring

theorem calls_state (ts : List K) : ∀ s : Series K, s.index < s.time.length → s.time.length ≤ s.values.length →
    (s.calls ts).2.time = s.time ∧ (s.calls ts).2.values = s.values ∧ (s.calls ts).2.index < s.time.length := by
  induction ts with
  | nil => intro s h1 h2; exact ⟨rfl, rfl, h1⟩
  | cons t ts ih =>
    intro s h1 h2
    have hne : s.time ≠ [] := by intro h; rw [h] at h1; simp at h1
    obtain ⟨first, hf⟩ : ∃ a, s.time.head? = some a := ⟨_, List.head?_eq_some_head hne⟩
    obtain ⟨last, hl⟩ : ∃ a, s.time.getLast? = some a := ⟨_, List.getLast?_eq_some_getLast hne⟩
    obtain ⟨c1, c2, c3⟩ := call_spec s h1 h2 first last hf hl t
    unfold Series.calls
    rcases lt_or_ge t first with h | h
    · rw [c1 h]
      exact ih s h1 h2
    · rcases lt_or_ge last t with h' | h'
      · rw [c2 h h']
        exact ih s h1 h2
      · obtain ⟨i, v, e, hi, -⟩ := c3 h h'
        rw [e]
        exact ih { s with index := i } hi h2

theorem isChain_increasing {T : List K} : List.IsChain (· ≤ ·) T ↔ ∀ (i : ℕ) (a b : K), T[i]? = some a → T[i + 1]? = some b → a ≤ b := by
  rw [List.isChain_iff_getElem]
  constructor
  · intro h i a b ha hb
    obtain ⟨h1, rfl⟩ := List.getElem?_eq_some_iff.1 ha
    obtain ⟨h2, rfl⟩ := List.getElem?_eq_some_iff.1 hb
    exact h i h2
  · intro h i hi
    exact h i _ _ (List.getElem?_eq_getElem (by omega)) (List.getElem?_eq_getElem hi)

/-- **C62.** A sequence of times that decreases somewhere is refused; every other one is accepted. -/
theorem C62_decreasing_refused (sp : Bool) (T V : List K) (n : ℕ) :
    (∃ (i : ℕ) (a b : K), T[i]? = some a ∧ T[i + 1]? = some b ∧ b < a) ↔ Series.make sp T V n = none := by
  unfold Series.make
  constructor
  · rintro ⟨i, a, b, ha, hb, hlt⟩
    rw [if_neg fun h : monotone T = true => absurd hlt (not_lt.2 (isChain_increasing.1 (of_decide_eq_true h) i a b ha hb))]
  · intro h
    by_contra hno
    rw [if_pos] at h
    · simp at h
    · unfold monotone
      rw [decide_eq_true_eq, isChain_increasing]
      intro i a b ha hb
      by_contra hab
      exact hno ⟨i, a, b, ha, hb, not_le.1 hab⟩

/-- **C62.** At any time in the range, and after any earlier calls in any order (also failed ones), the value lies on the polygonal line
through the data; before and after the range the two exceptions are raised. Times may repeat. -/
theorem C62_values (s : Series K) (hi : s.index < s.time.length) (hv : s.time.length ≤ s.values.length) (first last : K)
    (hf : s.time.head? = some first) (hl : s.time.getLast? = some last) (ts : List K) (t : K) :
    let r := ((s.calls ts).2.call t).map Prod.snd
    (t < first → r = .error .early) ∧ (first ≤ t → last < t → r = .error .late) ∧
      (first ≤ t → t ≤ last → ∃ v, r = .ok v ∧ LineThrough s.time s.values t v) := by
  obtain ⟨e1, e2, e3⟩ := calls_state ts s hi hv
  obtain ⟨c1, c2, c3⟩ := call_spec (s.calls ts).2 (by rw [e1]; exact e3) (by rw [e1, e2]; exact hv) first last (by rw [e1]; exact hf)
    (by rw [e1]; exact hl) t
  refine ⟨fun h => by simp only [c1 h]; rfl, fun h1 h2 => by simp only [c2 h1 h2]; rfl, fun h1 h2 => ?_⟩
  obtain ⟨i, v, e, -, hL⟩ := c3 h1 h2
  rw [e1, e2] at hL
  exact ⟨v, by simp only [e]; rfl, hL⟩

/-- With strictly increasing times there is only one polygonal line. -/
theorem lineThrough_unique {T V : List K} (hT : StrictlyIncreasing T) {t v w : K} (h1 : LineThrough T V t v) (h2 : LineThrough T V t w) : v = w := by
  have same : ∀ (i j : ℕ) (a b a' b' : K), T[i]? = some a → T[i + 1]? = some b → T[j]? = some a' → T[j + 1]? = some b' → a < t → t < b → a' < t →
      t < b' → i = j := by
    intro i j a b a' b' ha hb ha' hb' x1 x2 x3 x4
    rcases Nat.lt_trichotomy i j with h | h | h
    · have := hT.le (i + 1) j b a' (by omega) hb ha'
      linarith
    · exact h
    · have := hT.le (j + 1) i b' a (by omega) hb' ha
      linarith
  have never : ∀ (i j : ℕ) (a b : K), T[i]? = some t → T[j]? = some a → T[j + 1]? = some b → a < t → t < b → False := by
    intro i j a b hi ha hb x1 x2
    rcases Nat.lt_or_ge j i with h | h
    · have := hT.le (j + 1) i b t (by omega) hb hi
      linarith
    · have := hT.le i j t a h hi ha
      linarith
  rcases h1 with ⟨i, h1, h1'⟩ | ⟨i, a, b, p, q, ha, hb, hp, hq, x1, x2, hval⟩ <;>
    rcases h2 with ⟨j, h2, h2'⟩ | ⟨j, a', b', p', q', ha', hb', hp', hq', x1', x2', hval'⟩
  · rcases Nat.lt_trichotomy i j with h | h | h
    · exact absurd (hT i j t t h h1 h2) (lt_irrefl _)
    · subst h
      rw [h1'] at h2'
      exact Option.some.inj h2'
    · exact absurd (hT j i t t h h2 h1) (lt_irrefl _)
  · exact (never i j a' b' h1 ha' hb' x1' x2').elim
  · exact (never j i a b h2 ha hb x1 x2).elim
  · obtain rfl := same i j a b a' b' ha hb ha' hb' x1 x2 x1' x2'
    rw [ha] at ha'
    rw [hb] at hb'
    rw [hp] at hp'
    rw [hq] at hq'
    obtain rfl := Option.some.inj ha'
    obtain rfl := Option.some.inj hb'
    obtain rfl := Option.some.inj hp'
    obtain rfl := Option.some.inj hq'
    have hne : b - a ≠ 0 := by linarith
    have : (v - p) * (b - a) = (w - p) * (b - a) := by rw [hval, hval']
    linarith [mul_right_cancel₀ hne this]

/-- **C62.** With strictly increasing times the value at a time does not depend on the calls made before. -/
theorem C62_no_memory (s : Series K) (hi : s.index < s.time.length) (hv : s.time.length ≤ s.values.length) (hT : StrictlyIncreasing s.time)
    (ts ts' : List K) (t : K) : ((s.calls ts).2.call t).map Prod.snd = ((s.calls ts').2.call t).map Prod.snd := by
  have hne : s.time ≠ [] := by intro h; rw [h] at hi; simp at hi
  obtain ⟨first, hf⟩ : ∃ a, s.time.head? = some a := ⟨_, List.head?_eq_some_head hne⟩
  obtain ⟨last, hl⟩ : ∃ a, s.time.getLast? = some a := ⟨_, List.getLast?_eq_some_getLast hne⟩
  obtain ⟨a1, a2, a3⟩ := C62_values s hi hv first last hf hl ts t
  obtain ⟨b1, b2, b3⟩ := C62_values s hi hv first last hf hl ts' t
  rcases lt_or_ge t first with h | h
  · rw [a1 h, b1 h]
  · rcases lt_or_ge last t with h' | h'
    · rw [a2 h h', b2 h h']
    · obtain ⟨v, e, hv⟩ := a3 h h'
      obtain ⟨w, e', hw⟩ := b3 h h'
      rw [e, e', lineThrough_unique hT hv hw]

/-- **C62.** Values lie in the range of the data. -/
theorem C62_range (s : Series K) (hi : s.index < s.time.length) (hv : s.time.length ≤ s.values.length) (ts : List K) (t v : K)
    (h : ((s.calls ts).2.call t).map Prod.snd = .ok v) (lo hi' : K) (hr : ∀ q ∈ s.values, lo ≤ q ∧ q ≤ hi') : lo ≤ v ∧ v ≤ hi' := by
  have hne : s.time ≠ [] := by intro h; rw [h] at hi; simp at hi
  obtain ⟨first, hf⟩ : ∃ a, s.time.head? = some a := ⟨_, List.head?_eq_some_head hne⟩
  obtain ⟨last, hl⟩ : ∃ a, s.time.getLast? = some a := ⟨_, List.getLast?_eq_some_getLast hne⟩
  obtain ⟨a1, a2, a3⟩ := C62_values s hi hv first last hf hl ts t
  rcases lt_or_ge t first with h1 | h1
  · rw [a1 h1] at h; simp at h
  · rcases lt_or_ge last t with h2 | h2
    · rw [a2 h1 h2] at h; simp at h
    · obtain ⟨w, e, hw⟩ := a3 h1 h2
      rw [e] at h
      obtain rfl := Except.ok.inj h
      rcases hw with ⟨i, -, hq⟩ | ⟨i, a, b, p, q, -, -, hp, hq, x1, x2, hval⟩
      · exact hr _ (List.mem_of_getElem? hq)
      · obtain ⟨l1, r1⟩ := hr _ (List.mem_of_getElem? hp)
        obtain ⟨l2, r2⟩ := hr _ (List.mem_of_getElem? hq)
        have hd : 0 < b - a := by linarith
        constructor
        · by_contra hc
          push Not at hc
          nlinarith [mul_nonneg (sub_nonneg.2 l1) (by linarith : (0 : K) ≤ b - t), mul_nonneg (sub_nonneg.2 l2) (by linarith : (0 : K) ≤ t - a),
            mul_pos (sub_pos.2 hc) hd]
        · by_contra hc
          push Not at hc
          nlinarith [mul_nonneg (sub_nonneg.2 r1) (by linarith : (0 : K) ≤ b - t), mul_nonneg (sub_nonneg.2 r2) (by linarith : (0 : K) ≤ t - a),
            mul_pos (sub_pos.2 hc) hd]

theorem thin_get (n : ℕ) (hn : 0 < n) (l : List K) : ∀ i : ℕ, (thin n l)[i]? = l[i * n]? := by
  induction hlen : l.length using Nat.strong_induction_on generalizing l with
  | _ k ih =>
    intro i
    cases l with
    | nil => unfold thin; simp
    | cons x xs =>
      unfold thin
      cases i with
      | zero => simp
      | succ i =>
        rw [List.getElem?_cons_succ, ih (xs.drop (n - 1)).length (by rw [List.length_drop, ← hlen, List.length_cons]; omega) _ rfl,
          List.getElem?_drop]
        have : (i + 1) * n = (n - 1 + i * n) + 1 := by rw [Nat.add_mul]; omega
        rw [this, List.getElem?_cons_succ]

/-- **C62.** `time_thinning=n` in the spatial case: every `n`-th time with its own value is kept, nothing else. -/
theorem C62_thinning (T V : List K) (n : ℕ) (hn : 0 < n) (s : Series K) (h : Series.make true T V n = some s) :
    s.index = 0 ∧ ∀ i : ℕ, s.time[i]? = T[i * n]? ∧ s.values[i]? = V[i * n]? := by
  unfold Series.make at h
  by_cases hm : monotone T = true
  swap
  · rw [if_neg hm] at h; simp at h
  rw [if_pos hm, if_pos rfl] at h
  obtain rfl := Option.some.inj h
  exact ⟨rfl, fun i => ⟨thin_get n hn T i, thin_get n hn V i⟩⟩

/-- **C62.** End to end: a function made from strictly increasing times and equally many values meets the hypotheses of the theorems above, with
thinning in the spatial case and without thinning in both cases. -/
theorem C62_made (sp : Bool) (T V : List K) (n : ℕ) (hn : 0 < n) (hsp : sp = true ∨ n = 1) (h0 : T ≠ []) (hl : T.length = V.length)
    (hT : StrictlyIncreasing T) : ∃ s, Series.make sp T V n = some s ∧ s.index < s.time.length ∧ s.time.length ≤ s.values.length ∧
      StrictlyIncreasing s.time ∧ ∀ i : ℕ, s.time[i]? = T[i * n]? ∧ s.values[i]? = V[i * n]? := by
  have hm : monotone T = true := by
    unfold monotone
    rw [decide_eq_true_eq, isChain_increasing]
    exact fun i a b ha hb => (hT i (i + 1) a b (by omega) ha hb).le
  have hvals : ∀ i : ℕ, (if sp then thin n V else V)[i]? = V[i * n]? := by
    intro i
    rcases hsp with rfl | rfl
    · rw [if_pos rfl, thin_get n hn]
    · cases sp
      · simp
      · rw [if_pos rfl, thin_get 1 (by omega)]
  refine ⟨⟨thin n T, 0, if sp then thin n V else V⟩, by unfold Series.make; rw [if_pos hm], ?_, ?_, ?_, fun i => ⟨thin_get n hn T i, hvals i⟩⟩
  · cases T with
    | nil => exact absurd rfl h0
    | cons x xs => unfold thin; simp
  · by_contra hc
    push Not at hc
    have h1 := hvals (if sp then thin n V else V).length
    rw [List.getElem?_eq_none le_rfl] at h1
    have h2 : (thin n T)[(if sp then thin n V else V).length]? = some _ := List.getElem?_eq_getElem hc
    rw [thin_get n hn] at h2
    have h3 := (List.getElem?_eq_some_iff.1 h2).1
    have h4 := List.getElem?_eq_none_iff.1 h1.symm
    omega
  · intro i j a b hij ha hb
    simp only [thin_get n hn] at ha hb
    exact hT (i * n) (j * n) a b (Nat.mul_lt_mul_of_pos_right hij hn) ha hb

/-- **C62.** Thinning a function of time only: the times are thinned, the values are not, so that the value reported at a time belongs to
another time (here 10, the value at time 1, instead of 20 at time 2). -/
theorem C62_thinning_of_time_only : ((Series.make false [0, 1, 2, 3, 4] [0, 10, 20, 30, 40] 2).map fun s : Series ℚ => (s.call 2).map Prod.snd) =
    some (.ok 10) := by decide +kernel

/-- **C62.** Repeated times are accepted, and then the value depends on the calls before: at the repeated time 1 it is 10 at first, and 20 after
a call at time 2. -/
theorem C62_repeated_time : ((Series.make false [0, 1, 1, 2] [0, 10, 20, 30] 1).map fun s : Series ℚ =>
    ((s.call 1).map Prod.snd, ((s.calls [2]).2.call 1).map Prod.snd)) = some (.ok 10, .ok 20) := by decide +kernel

/-! ## A concrete function -/

/-- Five times, thinned by two. -/
example : ((Series.make true [0, 1, 2, 3, 4] [0, 10, 20, 30, 40] 2).map fun s : Series ℚ => (s.calls [1, 4, 5, -1, 3, 0]).1) =
    some [.ok 10, .ok 40, .error .late, .error .early, .ok 30, .ok 0] := by decide +kernel

example : StrictlyIncreasing ([0, 1, 5 / 2] : List ℚ) := by
  intro i j a b hij ha hb
  have hj : j < 3 := (List.getElem?_eq_some_iff.1 hb).1
  interval_cases j <;> interval_cases i <;> simp at ha hb <;> subst ha hb <;> norm_num

end Verif.Interp
