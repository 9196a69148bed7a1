import Verif.Gauge.Spec
import Verif.FileFn.Props

/-! # Lemmas for series at gauges -/

namespace Verif.Gauge

set_option linter.unusedSectionVars false

open Verif.Polygon (Pt IsSqrt)
open Verif.Interp (Mesh StrictlyIncreasing LineThrough)
open Verif.FileFn

variable {K : Type*} [Field K] [LinearOrder K] [IsStrictOrderedRing K]

/-! ## Values at the stored times -/

theorem index_lt {T : List K} (hT : StrictlyIncreasing T) {i j : ℕ} {a b : K} (ha : T[i]? = some a) (hb : T[j]? = some b) (h : a < b) : i < j := by
  by_contra hc
  rcases Nat.lt_or_eq_of_le (not_lt.1 hc) with h1 | h1
  · exact absurd (hT _ _ _ _ h1 hb ha) (not_lt.2 h.le)
  · subst h1
    rw [ha] at hb
    exact absurd (Option.some.inj hb) (ne_of_lt h)

/-- At a used result the values are those of that result. -/
theorem at_stored {f : File K} {x : List (Pt K)} {T : List K} {names : List String} {cen : Bool} {idx : List ℕ} {abc : ℕ × ℕ × ℕ} {P : Pt K}
    {q : List K} (hT : StrictlyIncreasing T) (hs : idx.Pairwise (· < ·)) (hT' : ∀ i ∈ idx, i < T.length) {i : ℕ} (hi : i ∈ idx) {t : K}
    (ht : T[i]? = some t) (h : Shows f x T names cen idx abc P (t + f.starttime) q) (n : ℕ) (name : String) (hn : names[n]? = some name) :
    ∃ v z, f.vars name = some v ∧ q[n]? = some z ∧ InSpace cen (absNode x f.corner abc.1) (absNode x f.corner abc.2.1) (absNode x f.corner abc.2.2)
      (v.value i abc.1) (v.value i abc.2.1) (v.value i abc.2.2) P z := by
  obtain ⟨v, z, hv, hz, V, hV, hsp, hline⟩ := h.2 n name hn
  have habs : ∀ (j : ℕ) (a : K), (absTimes T f.starttime idx)[j]? = some a → ∃ i' u, idx[j]? = some i' ∧ T[i']? = some u ∧ a = u + f.starttime := by
    intro j a ha
    unfold absTimes at ha
    rw [List.getElem?_map] at ha
    cases hj : idx[j]? with
    | none => rw [hj] at ha; simp at ha
    | some i' =>
      rw [hj, Option.map_some] at ha
      have hl := hT' i' (List.mem_of_getElem? hj)
      refine ⟨i', T[i'], rfl, List.getElem?_eq_getElem hl, ?_⟩
      rw [← Option.some.inj ha, List.getD_eq_getElem?_getD, List.getElem?_eq_getElem hl, Option.getD_some]
  refine ⟨v, z, hv, hz, ?_⟩
  rcases hline with ⟨j, h1, h2⟩ | ⟨j, a, b, v0, v1, h1, h2, -, -, h3, h4, -⟩
  · obtain ⟨i', u, k1, k2, k3⟩ := habs j _ h1
    have : u = t := by linarith
    subst this
    have : i' = i := by
      rcases lt_trichotomy i' i with hh | hh | hh
      · exact absurd (hT _ _ _ _ hh k2 ht) (lt_irrefl _)
      · exact hh
      · exact absurd (hT _ _ _ _ hh ht k2) (lt_irrefl _)
    subst this
    obtain ⟨y, k4, k5⟩ := hsp j i' k1
    rw [h2] at k4
    rw [Option.some.inj k4]
    exact k5
  · exfalso
    obtain ⟨i0, u0, k1, k2, k3⟩ := habs j _ h1
    obtain ⟨i1, u1, l1, l2, l3⟩ := habs (j + 1) _ h2
    have g0 := index_lt hT k2 ht (by linarith)
    have g1 := index_lt hT ht l2 (by linarith)
    obtain ⟨p, hp⟩ := List.getElem?_of_mem hi
    rw [List.pairwise_iff_getElem] at hs
    obtain ⟨hpl, hp'⟩ := List.getElem?_eq_some_iff.1 hp
    obtain ⟨hjl, hj'⟩ := List.getElem?_eq_some_iff.1 k1
    obtain ⟨hjl1, hj1'⟩ := List.getElem?_eq_some_iff.1 l1
    rcases Nat.lt_or_ge j p with hjp | hjp
    · rcases Nat.lt_or_eq_of_le (Nat.succ_le_of_lt hjp) with hh | hh
      · have := hs (j + 1) p hjl1 hpl hh
        omega
      · subst hh
        rw [l1] at hp
        have := Option.some.inj hp
        omega
    · rcases Nat.lt_or_eq_of_le hjp with hh | hh
      · have := hs p j hpl hjl hh
        omega
      · subst hh
        rw [k1] at hp
        have := Option.some.inj hp
        omega

theorem kept_all (T : List K) (start : K) : Kept T start 1 none (List.range T.length) where
  sorted := List.pairwise_lt_range
  mem := by
    intro i
    simp only [List.mem_range]
    constructor
    · intro h
      exact ⟨T[i], List.getElem?_eq_getElem h, one_dvd i, by simp⟩
    · rintro ⟨t, ht, -⟩
      exact (List.getElem?_eq_some_iff.1 ht).1

theorem after_append (F : Fn K) (h : List (K × Option ℕ)) (a : K × Option ℕ) : F.after (h ++ [a]) = (F.after h).after [a] := by
  induction h generalizing F with
  | nil => rfl
  | cons b h ih =>
    simp only [List.cons_append, Fn.after]
    cases F.call b.1 b.2 with
    | error e => exact ih F
    | ok r => exact ih r.1

/-- At a stored time the answer does not depend on the history. -/
theorem call_same (F : Fn K) (hi : F.index < F.time.length) (hT : StrictlyIncreasing F.time) (p : Option ℕ) (hp : F.answers p)
    (r : ℕ → List (Cell K)) (hr : ∀ j < F.time.length, F.pre.at p j = some (r j)) (j : ℕ) (t : K) (hj : F.time[j]? = some t)
    (hist : List (K × Option ℕ)) : ((F.after hist).call t p).map Prod.snd = .ok (r j) := by
  obtain ⟨i, e, hi'⟩ := after_keeps hist F hi
  have hjl := (List.getElem?_eq_some_iff.1 hj).1
  have hjt := (List.getElem?_eq_some_iff.1 hj).2
  have hle : ∀ (a b : ℕ) (u v : K), a ≤ b → F.time[a]? = some u → F.time[b]? = some v → u ≤ v := by
    intro a b u v hab hu hv
    rcases Nat.lt_or_eq_of_le hab with h | h
    · exact (hT a b u v h hu hv).le
    · subst h
      rw [hu] at hv
      exact (Option.some.inj hv).le
  have h0 : F.time[0]? = some (F.time[0]'(by omega)) := List.getElem?_eq_getElem _
  have h1 : F.time[F.time.length - 1]? = some (F.time[F.time.length - 1]'(by omega)) := List.getElem?_eq_getElem _
  obtain ⟨-, -, s3⟩ := call_slot (F.after hist) (by rw [e]; exact hi') p (by rw [e]; exact hp) (F.time[0]'(by omega))
    (F.time[F.time.length - 1]'(by omega)) (by rw [e, List.head?_eq_getElem?]; exact h0) (by rw [e, List.getLast?_eq_getElem?]; exact h1) t
  obtain ⟨k, hk, hcase⟩ := s3 (hle 0 j _ _ (by omega) h0 hj) (hle j _ _ _ (by omega) hj h1)
  have htime : (F.after hist).time = F.time := by rw [e]
  have hpre : (F.after hist).pre = F.pre := by rw [e]
  rw [htime] at hk
  rw [hpre] at hcase
  rcases hcase with ⟨c1, c2⟩ | ⟨a, b, c1, c2, c3, c4, -⟩
  · rw [htime] at c1
    have hkj : k = j := by
      rcases lt_trichotomy k j with h | h | h
      · exact absurd (hT _ _ _ _ h c1 hj) (lt_irrefl _)
      · exact h
      · exact absurd (hT _ _ _ _ h hj c1) (lt_irrefl _)
    subst hkj
    rw [c2 _ (hr k hk)]
    rfl
  · rw [htime] at c1 c2
    have g0 := index_lt hT c1 hj c3
    have g1 := index_lt hT hj c2 c4
    omega

/-! ## Writing -/

/-- The csv files hold the rows `R i` of the gauges, or what was there before if there are none. -/
def Inv (csv0 : String → Option (List (List (Cell K)))) (names : List String) (o : Out K) (R : ℕ → List (List (Cell K))) : Prop :=
  (∀ (i : ℕ) (s : String), names[i]? = some s → (R i = [] → o.opened i = false ∧ o.csv s = csv0 s) ∧
    (R i ≠ [] → o.opened i = true ∧ o.csv s = some (R i))) ∧ ∀ s, s ∉ names → o.csv s = csv0 s

/-- One more list of rows for gauge `i`. -/
def more (R : ℕ → List (List (Cell K))) (i : ℕ) (p : List (List (Cell K))) : ℕ → List (List (Cell K)) := fun j => if j = i then R i ++ p else R j

theorem write_inv {csv0 : String → Option (List (List (Cell K)))} {names : List String} (hnd : names.Nodup) {o : Out K}
    {R : ℕ → List (List (Cell K))} (h : Inv csv0 names o R) {i : ℕ} {s : String} (hi : names[i]? = some s) (row : List (Cell K)) :
    Inv csv0 names (o.write i s row) (more R i [row]) := by
  obtain ⟨h1, h2⟩ := h
  refine ⟨fun j t hj => ?_, fun t ht => ?_⟩
  · by_cases hji : j = i
    · subst hji
      rw [hi] at hj
      obtain rfl := Option.some.inj hj
      obtain ⟨g1, g2⟩ := h1 j s hi
      refine ⟨fun hc => ?_, fun _ => ⟨by simp [Out.write], ?_⟩⟩
      · simp [more] at hc
      · unfold Out.write more
        simp only [if_true]
        by_cases hR : R j = []
        · rw [(g1 hR).1, hR]
          simp
        · rw [(g2 hR).1, (g2 hR).2]
          simp
    · have hne : t ≠ s := by
        rintro rfl
        obtain ⟨a1, a2⟩ := List.getElem?_eq_some_iff.1 hj
        obtain ⟨b1, b2⟩ := List.getElem?_eq_some_iff.1 hi
        exact hji ((List.Nodup.getElem_inj_iff hnd).1 (a2.trans b2.symm))
      obtain ⟨g1, g2⟩ := h1 j t hj
      simp only [more, Out.write, if_neg hji, if_neg hne]
      exact ⟨g1, g2⟩
  · have hne : t ≠ s := by
      rintro rfl
      exact ht (List.mem_of_getElem? hi)
    simp only [Out.write, if_neg hne]
    exact h2 t ht

theorem more_more (R : ℕ → List (List (Cell K))) (i : ℕ) (p q : List (List (Cell K))) : more (more R i p) i q = more R i (p ++ q) := by
  funext j
  unfold more
  by_cases h : j = i <;> simp [h]

theorem more_nil (R : ℕ → List (List (Cell K))) (i : ℕ) : more R i [] = R := by
  funext j
  unfold more
  by_cases h : j = i <;> simp [h]

/-- What happens at gauge number `i`, whatever was done before. -/
def Serves (q : Cols K) (cents : List (Pt K)) (off : K) (F : Fn K) (csv0 : String → Option (List (List (Cell K)))) (names : List String) (i : ℕ)
    (ts : List K) (p : List (List (Cell K))) : Prop :=
  ∀ s, names[i]? = some s → ∀ hist o R, Inv csv0 names o R → ∃ hist' o', overTimes q cents off i s (F.after hist) o ts = .ok (F.after hist', o') ∧
    Inv csv0 names o' (more R i p)

theorem serves_off (q : Cols K) (cents : List (Pt K)) (off : K) (F : Fn K) (csv0 : String → Option (List (List (Cell K)))) (names : List String)
    (i : ℕ) (ts : List K) (h : ∀ t ∈ ts, ∀ hist, ∃ r, ((F.after hist).call t (some i)).map Prod.snd = .ok (.inf :: r)) :
    Serves q cents off F csv0 names i ts [] := by
  intro s _ hist o R hR
  rw [more_nil]
  induction ts generalizing hist with
  | nil => exact ⟨hist, o, rfl, hR⟩
  | cons t ts ih =>
    obtain ⟨r, hr⟩ := h t (by simp) hist
    cases hc : (F.after hist).call t (some i) with
    | error e => rw [hc] at hr; simp [Except.map] at hr
    | ok G =>
      obtain ⟨G, c⟩ := G
      rw [hc] at hr
      obtain rfl : c = .inf :: r := by simpa [Except.map] using hr
      have hG : G = F.after (hist ++ [(t, some i)]) := by rw [after_append, Fn.after, hc]; rfl
      obtain ⟨hist', o', h1, h2⟩ := ih (fun u hu => h u (by simp [hu])) (hist ++ [(t, some i)])
      refine ⟨hist', o', ?_, h2⟩
      unfold overTimes oneTime
      rw [hc]
      simp only
      rw [hG]
      exact h1

theorem serves_on (q : Cols K) (cents : List (Pt K)) (off : K) (F : Fn K) (csv0 : String → Option (List (List (Cell K)))) (names : List String)
    (hnd : names.Nodup) (i : ℕ) (ts : List K) (row : K → List (Cell K)) (h : ∀ t ∈ ts, ∃ w z uh vh, (∀ hist,
      ((F.after hist).call t (some i)).map Prod.snd = .ok [.num w, .num z, .num uh, .num vh]) ∧
      ∃ c, columns q.sq q.bear cents i w z uh vh q.names = some c ∧ row t = .num (t + off) :: .num ((t + off) / 3600) :: c) :
    Serves q cents off F csv0 names i ts (ts.map row) := by
  intro s hs hist o R hR
  induction ts generalizing hist o R with
  | nil => exact ⟨hist, o, rfl, by rw [List.map_nil, more_nil]; exact hR⟩
  | cons t ts ih =>
    obtain ⟨w, z, uh, vh, hr, c, hc1, hc2⟩ := h t (by simp)
    have hr := hr hist
    cases hc : (F.after hist).call t (some i) with
    | error e => rw [hc] at hr; simp [Except.map] at hr
    | ok G =>
      obtain ⟨G, c'⟩ := G
      rw [hc] at hr
      obtain rfl : c' = [.num w, .num z, .num uh, .num vh] := by simpa [Except.map] using hr
      have hG : G = F.after (hist ++ [(t, some i)]) := by rw [after_append, Fn.after, hc]; rfl
      obtain ⟨hist', o', h1, h2⟩ := ih (fun u hu => h u (by simp [hu])) (hist ++ [(t, some i)]) _ _ (write_inv hnd hR hs (row t))
      refine ⟨hist', o', ?_, ?_⟩
      · unfold overTimes oneTime
        rw [hc]
        simp only [hc1]
        rw [hG, ← hc2]
        exact h1
      · rw [more_more] at h2
        simpa using h2

theorem overGauges_spec (q : Cols K) (cents : List (Pt K)) (off : K) (F : Fn K) (csv0 : String → Option (List (List (Cell K)))) (names : List String)
    (ts : List K) (p : ℕ → List (List (Cell K))) (h : ∀ i < names.length, Serves q cents off F csv0 names i ts (p i)) :
    ∀ (gs : List String) (i : ℕ), names.drop i = gs → ∀ hist o R, Inv csv0 names o R →
      ∃ o', overGauges q cents off ts i (F.after hist) o gs = .ok o' ∧ Inv csv0 names o' (fun j => if i ≤ j then R j ++ p j else R j) := by
  intro gs
  induction gs with
  | nil =>
    intro i hd hist o R hR
    refine ⟨o, rfl, ?_, hR.2⟩
    intro j s hj
    have hji : ¬ i ≤ j := by
      have h1 := (List.getElem?_eq_some_iff.1 hj).1
      have h2 : names.length ≤ i := List.drop_eq_nil_iff.1 hd
      omega
    simp only [if_neg hji]
    exact hR.1 j s hj
  | cons g gs ih =>
    intro i hd hist o R hR
    have hi : names[i]? = some g := by
      have : (names.drop i)[0]? = some g := by rw [hd]; rfl
      rw [List.getElem?_drop] at this
      exact this
    have hil := (List.getElem?_eq_some_iff.1 hi).1
    obtain ⟨hist', o', h1, h2⟩ := h i hil g hi hist o R hR
    have hd' : names.drop (i + 1) = gs := by
      rw [← List.tail_drop, hd]
      rfl
    obtain ⟨o'', h3, h4⟩ := ih (i + 1) hd' hist' o' _ h2
    refine ⟨o'', ?_, ?_⟩
    · unfold overGauges
      rw [h1]
      exact h3
    · convert h4 using 1
      funext j
      unfold more
      rcases lt_trichotomy j i with hj | hj | hj
      · rw [if_neg (by omega), if_neg (by omega), if_neg (by omega)]
      · subst hj
        rw [if_pos le_rfl, if_neg (by omega), if_pos rfl]
      · rw [if_pos (by omega), if_pos (by omega), if_neg (by omega)]

/-! ## Columns -/

theorem column_entry (sq : K → K) (hs : IsSqrt sq) (bear : K → K → Cell K) (cents : List (Pt K)) (i : ℕ) (w z uh vh : K) (s : String)
    (h : s ∈ exported) : ∃ c, column sq bear cents i w z uh vh s = some [c] ∧ Entry bear w z uh vh s c := by
  have hm := hs (uh ^ 2 + vh ^ 2) (by positivity)
  simp only [exported, List.mem_cons, List.not_mem_nil, or_false] at h
  rcases h with rfl | rfl | rfl | rfl | rfl | rfl | rfl | rfl
  · exact ⟨_, rfl, by simp [Entry]⟩
  · exact ⟨_, rfl, by simp [Entry]⟩
  · exact ⟨_, rfl, by simp [Entry]⟩
  · exact ⟨_, rfl, by simp [Entry]⟩
  · exact ⟨_, rfl, by simp [Entry]⟩
  · refine ⟨_, rfl, ?_⟩
    simp only [Entry, String.reduceEq, false_implies, true_and, and_true, forall_const]
    exact ⟨_, hm.1, hm.2, rfl⟩
  · refine ⟨_, rfl, ?_⟩
    simp only [Entry, String.reduceEq, false_implies, true_and, and_true, forall_const]
    constructor
    · rintro (h | h)
      · rw [if_pos h]
      · rw [if_neg (not_lt.2 h)]
        simp
    · intro h1 h2
      rw [if_neg (not_lt.2 h1), if_pos h2]
      have hp : 0 < w - z := by
        have : (0 : K) < 1 / 1000 := by norm_num
        linarith
      refine ⟨_, div_nonneg hm.1 hp.le, ?_, rfl⟩
      rw [div_mul_cancel₀ _ hp.ne']
      exact hm.2
  · exact ⟨_, rfl, by simp [Entry]⟩

theorem columns_entry (sq : K → K) (hs : IsSqrt sq) (bear : K → K → Cell K) (cents : List (Pt K)) (i : ℕ) (w z uh vh : K) (names : List String)
    (h : ∀ s ∈ names, s ∈ exported) : ∃ cs, columns sq bear cents i w z uh vh names = some cs ∧ cs.length = names.length ∧
      ∀ (n : ℕ) (q : String), names[n]? = some q → ∃ c, cs[n]? = some c ∧ Entry bear w z uh vh q c := by
  induction names with
  | nil => exact ⟨[], rfl, rfl, by simp⟩
  | cons s ss ih =>
    obtain ⟨c, h1, h2⟩ := column_entry sq hs bear cents i w z uh vh s (h s (by simp))
    obtain ⟨cs, h3, h4, h5⟩ := ih fun t ht => h t (by simp [ht])
    refine ⟨c :: cs, ?_, by simp [h4], ?_⟩
    · unfold columns
      rw [h1, h3]
      rfl
    · intro n q hn
      cases n with
      | zero => exact ⟨c, rfl, by simp at hn; subst hn; exact h2⟩
      | succ n => exact h5 n q (by simpa using hn)

end Verif.Gauge
