import Verif.Wall.Props
import Mathlib.Tactic.NormNum

/-!
# C82: parameters of river walls, gaps, and limits of the code
-/

set_option linter.unusedSectionVars false

namespace Verif.Wall

variable {K : Type*} [Field K] [LinearOrder K] [IsStrictOrderedRing K]
variable {sq : K → K} {D : Dom K} {maxFloat tol : K} {verbose : Bool} {walls : List (String × List (Pt3 K))} {par : List (String × List (String × K))}
  {dflt : List (String × K)} {s s' : St K}

/-- Defaults are as on a new domain: nothing has been done yet, or there are walls already, which will be deleted. -/
def Untouched (s : St K) : Prop := s.names ≠ [] ∨ s.default = standard

theorem inForce_eq (h : Untouched s) : inForce s dflt = (standard : List (String × K)).map fun e => (e.1, (dflt.lookup e.1).getD e.2) := by
  unfold inForce
  rcases h with h | h
  · rw [if_pos (List.length_pos_of_ne_nil h)]
  · rw [h, ite_self]

theorem has_iff {α : Type*} (d : List (String × α)) (k : String) : has d k = true ↔ ∃ x, (k, x) ∈ d := by
  unfold has
  rw [List.any_eq_true]
  constructor
  · rintro ⟨⟨a, x⟩, h1, h2⟩
    rw [beq_iff_eq] at h2
    exact ⟨x, by rw [← h2]; exact h1⟩
  · rintro ⟨x, h⟩
    exact ⟨(k, x), h, by simp⟩

theorem has_inForce (h : Untouched s) (k : String) : has (inForce s dflt) k = true ↔ k ∈ params := by
  rw [inForce_eq h]
  unfold has standard params
  simp only [List.map_cons, List.map_nil, List.any_cons, List.any_nil, Bool.or_false, Bool.or_eq_true, beq_iff_eq, List.mem_cons, List.not_mem_nil, or_false]
  simp only [eq_comm]

theorem value_unique {name v : String} {x y : K} (hx : Value par dflt name v x) (hy : Value par dflt name v y) : x = y := by
  rcases hx with ⟨d, d1, d2⟩ | ⟨h1, h2⟩
  · rcases hy with ⟨d', d1', d2'⟩ | ⟨h1', -⟩
    · rw [d1] at d1'
      obtain rfl := Option.some.inj d1'
      rw [d2] at d2'
      exact Option.some.inj d2'
    · rw [h1' d d1] at d2
      simp at d2
  · rcases hy with ⟨d, d1, d2⟩ | ⟨-, h2'⟩
    · rw [h1 d d1] at d2
      simp at d2
    · rcases h2 with h2 | ⟨h2, h3⟩ <;> rcases h2' with h2' | ⟨h2', h3'⟩
      · exact Option.some.inj (h2.symm.trans h2')
      · rw [h2] at h2'; simp at h2'
      · rw [h2] at h2'; simp at h2'
      · rcases h3 with ⟨rfl, rfl⟩ | ⟨rfl, rfl⟩ | ⟨rfl, rfl⟩ | ⟨rfl, rfl⟩ | ⟨rfl, rfl⟩ <;>
          (simp [Standard] at h3'; exact h3'.symm)

theorem entry (h : Untouched s) (name : String) {v : String} (hv : v ∈ params) :
    Value par dflt name v (match (par.lookup name).bind (fun d => d.lookup v) with | some x => x | none => ((inForce s dflt).lookup v).getD 0) := by
  rw [inForce_eq h]
  have hdef : dflt.lookup v = some ((((standard : List (String × K)).map fun e => (e.1, (dflt.lookup e.1).getD e.2)).lookup v).getD 0) ∨
      dflt.lookup v = none ∧ Standard v ((((standard : List (String × K)).map fun e => (e.1, (dflt.lookup e.1).getD e.2)).lookup v).getD 0) := by
    simp only [params, List.mem_cons, List.not_mem_nil, or_false] at hv
    rcases hv with rfl | rfl | rfl | rfl | rfl
    · cases hd : dflt.lookup "Qfactor" <;> simp [standard, Standard, List.lookup, hd]
    · cases hd : dflt.lookup "s1" <;> simp [standard, Standard, List.lookup, hd]
    · cases hd : dflt.lookup "s2" <;> simp [standard, Standard, List.lookup, hd]; norm_num
    · cases hd : dflt.lookup "h1" <;> simp [standard, Standard, List.lookup, hd]
    · cases hd : dflt.lookup "h2" <;> simp [standard, Standard, List.lookup, hd]
  cases hp : par.lookup name with
  | none =>
    right
    refine ⟨fun d hd => ?_, ?_⟩
    · rw [hp] at hd; simp at hd
    · simpa using hdef
  | some d =>
    cases hd : d.lookup v with
    | none =>
      right
      refine ⟨fun d' hd' => ?_, ?_⟩
      · rw [hp] at hd'
        obtain rfl := Option.some.inj hd'
        exact hd
      · simpa [hd] using hdef
    | some x =>
      left
      refine ⟨d, hp, ?_⟩
      simpa [hd] using hd

theorem tableRow_eq (h : Untouched s) (name : String) : ∃ q s1 s2 h1 h2, tableRow par (inForce s dflt) name = [q, s1, s2, h1, h2] ∧
    Value par dflt name "Qfactor" q ∧ Value par dflt name "s1" s1 ∧ Value par dflt name "s2" s2 ∧ Value par dflt name "h1" h1 ∧ Value par dflt name "h2" h2 := by
  unfold tableRow
  exact ⟨_, _, _, _, _, rfl, entry h name (by simp [params]), entry h name (by simp [params]), entry h name (by simp [params]), entry h name (by simp [params]),
    entry h name (by simp [params])⟩

theorem tableError_none (t : List (List K)) : tableError t = none ↔ ∀ r ∈ t,
    r.getD 1 0 < r.getD 2 0 ∧ 0 ≤ r.getD 1 0 ∧ r.getD 3 0 < r.getD 4 0 ∧ 0 ≤ r.getD 3 0 := by
  unfold tableError
  constructor
  · intro h r hr
    split_ifs at h with h1 h2
    rw [Bool.not_eq_true, List.any_eq_false] at h1 h2
    have k1 := h1 r hr
    have k2 := h2 r hr
    simp only [Bool.or_eq_true, decide_eq_true_eq, not_or, not_le, not_lt, ge_iff_le] at k1 k2
    exact ⟨k1.1, k1.2.1, k2.1, k2.2.1⟩
  · intro h
    rw [if_neg, if_neg]
    · rw [Bool.not_eq_true, List.any_eq_false]
      intro r hr
      obtain ⟨-, -, k3, k4⟩ := h r hr
      simp only [Bool.or_eq_true, decide_eq_true_eq, not_or, not_le, not_lt, ge_iff_le]
      exact ⟨k3, k4, k4.trans k3.le⟩
    · rw [Bool.not_eq_true, List.any_eq_false]
      intro r hr
      obtain ⟨k1, k2, -⟩ := h r hr
      simp only [Bool.or_eq_true, decide_eq_true_eq, not_or, not_le, not_lt, ge_iff_le]
      exact ⟨k1, k2, k2.trans k1.le⟩

/-- **C82.** Row `i` of the table of parameters, which the flux computation reads in the order Qfactor, s1, s2, h1, h2, holds those of wall `i`: given for it,
else the given default, else the standard; they are admissible. -/
theorem C82_parameters (hu : Untouched s) (h : create sq D maxFloat tol verbose walls par dflt s = (s', none)) {i : ℕ} {w : String × List (Pt3 K)}
    (hw : walls[i]? = some w) :
    ∃ q s1 s2 h1 h2, s'.table[i]? = some [q, s1, s2, h1, h2] ∧ Value par dflt w.1 "Qfactor" q ∧ Value par dflt w.1 "s1" s1 ∧ Value par dflt w.1 "s2" s2 ∧
      Value par dflt w.1 "h1" h1 ∧ Value par dflt w.1 "h2" h2 ∧ 0 ≤ s1 ∧ s1 < s2 ∧ 0 ≤ h1 ∧ h1 < h2 := by
  obtain ⟨-, -, -, -, ht, htab, -⟩ := success h
  obtain ⟨q, s1, s2, h1, h2, e, v1, v2, v3, v4, v5⟩ := tableRow_eq (par := par) (dflt := dflt) hu w.1
  obtain ⟨k1, k2, k3, k4⟩ := (tableError_none _).mp ht _ (List.mem_map.mpr ⟨w, List.mem_of_getElem? hw, rfl⟩)
  rw [e] at k1 k2 k3 k4
  exact ⟨q, s1, s2, h1, h2, by rw [htab, List.getElem?_map, hw]; exact congrArg some e, v1, v2, v3, v4, v5, k2, k1, k4, k3⟩

/-- **C82.** Edge `i` of a triangle joins the two corners other than corner `i`, and its midpoint is half-way. -/
theorem C82_geometry (D : Dom K) (k : ℕ) {i : ℕ} (hi : i < 3) :
    (∀ r, (r = (ends (3 * k + i)).1 ∨ r = (ends (3 * k + i)).2) ↔ ∃ j, j < 3 ∧ j ≠ i ∧ r = 3 * k + j) ∧
    2 * (D.mid (3 * k + i)).1 = (D.vert (ends (3 * k + i)).1).1 + (D.vert (ends (3 * k + i)).2).1 ∧
    2 * (D.mid (3 * k + i)).2 = (D.vert (ends (3 * k + i)).1).2 + (D.vert (ends (3 * k + i)).2).2 := by
  have hm : (3 * k + i) % 3 = i := by omega
  have hd : (3 * k + i) / 3 = k := by omega
  unfold Dom.mid ends
  simp only [hm, hd]
  rcases (by omega : i = 0 ∨ i = 1 ∨ i = 2) with rfl | rfl | rfl
  · refine ⟨fun r => ⟨fun h => ?_, ?_⟩, ?_, ?_⟩
    · rcases h with rfl | rfl
      · exact ⟨1, by norm_num⟩
      · exact ⟨2, by norm_num⟩
    · rintro ⟨j, h1, h2, rfl⟩
      simp only [if_true]
      omega
    · simp
    · simp
  · refine ⟨fun r => ⟨fun h => ?_, ?_⟩, ?_, ?_⟩
    · rcases h with rfl | rfl
      · exact ⟨0, by norm_num⟩
      · exact ⟨2, by norm_num⟩
    · rintro ⟨j, h1, h2, rfl⟩
      simp only [one_ne_zero, if_false, if_true]
      omega
    · simp only [one_ne_zero, if_false, if_true, Nat.add_sub_cancel]
      rw [show 3 * k + 1 + 1 = 3 * k + 2 by omega]
      ring
    · simp only [one_ne_zero, if_false, if_true, Nat.add_sub_cancel]
      rw [show 3 * k + 1 + 1 = 3 * k + 2 by omega]
      ring
  · refine ⟨fun r => ⟨fun h => ?_, ?_⟩, ?_, ?_⟩
    · rcases h with rfl | rfl
      · exact ⟨0, by norm_num⟩
      · exact ⟨1, by norm_num⟩
    · rintro ⟨j, h1, h2, rfl⟩
      simp only [OfNat.ofNat_ne_zero, OfNat.ofNat_ne_one, if_false]
      omega
    · simp
    · simp

/-! ## Gaps -/

/-- The edge belongs to wall `i`: the last segment along it is one of that wall. -/
def Belongs (D : Dom K) (tol : K) (walls : List (String × List (Pt3 K))) (i e : ℕ) : Prop :=
  e < 3 * D.n ∧ ∃ j a b, Segment walls i j a b ∧ Strip tol a b (D.place e) ∧
    ∀ i' j' a' b', Later i j i' j' → Segment walls i' j' a' b' → ¬ Strip tol a' b' (D.place e)

/-- Three different places inside the domain are ends of just one edge. -/
def Gap (D : Dom K) (E : ℕ → Prop) : Prop := ∃ p q r, p ≠ q ∧ p ≠ r ∧ q ≠ r ∧ D.Loose E p ∧ D.Loose E q ∧ D.Loose E r

theorem mem_edgesOf (F : List ℕ) (row : ℕ → ℤ) (i e : ℕ) : e ∈ edgesOf F (F.map row) i ↔ e ∈ F ∧ row e = i := by
  unfold edgesOf
  have : ∀ F : List ℕ, F.zip (F.map row) = F.map fun e => (e, row e) := by
    intro F
    induction F with
    | nil => rfl
    | cons a F ih => simp [ih]
  rw [this, List.mem_map]
  constructor
  · rintro ⟨x, h1, rfl⟩
    rw [List.mem_filter, List.mem_map, decide_eq_true_eq] at h1
    obtain ⟨⟨y, y1, rfl⟩, h2⟩ := h1
    exact ⟨y1, h2⟩
  · rintro ⟨h1, h2⟩
    exact ⟨(e, row e), List.mem_filter.mpr ⟨List.mem_map.mpr ⟨e, h1, rfl⟩, by simpa using h2⟩, rfl⟩

theorem belongs_iff (hs : IsSqrt sq) (ht : 0 < tol) (i e : ℕ) :
    e ∈ edgesOf (found sq D maxFloat tol walls s) ((found sq D maxFloat tol walls s).map (mark sq D maxFloat tol s.flux walls).row) i ↔ Belongs D tol walls i e := by
  rw [mem_edgesOf]
  unfold found Belongs
  rw [List.mem_filter, List.mem_range, decide_eq_true_eq, and_assoc]
  refine and_congr_right fun _ => ?_
  rcases mark_spec (sq := sq) (D := D) (maxFloat := maxFloat) hs ht s.flux walls e with ⟨h0, -, -, h3⟩ | ⟨i', j, a, b, k1, k2, k3, k4, -, k6⟩
  · rw [h3]
    constructor
    · rintro ⟨-, h⟩; omega
    · rintro ⟨j, a, b, h1, h2, -⟩
      exact absurd ⟨i, j, a, b, h1, h2⟩ h0
  · rw [k6]
    constructor
    · rintro ⟨-, h⟩
      obtain rfl : i' = i := by exact_mod_cast h
      exact ⟨j, a, b, k1, k2, k3⟩
    · rintro ⟨j', a', b', h1, h2, h3⟩
      refine ⟨k4, ?_⟩
      by_contra hne
      have hne' : i' ≠ i := fun hh => hne (by rw [hh])
      rcases lt_or_gt_of_ne hne' with hlt | hlt
      · exact k3 i j' a' b' (Or.inl hlt) h1 h2
      · exact h3 i' j a b (Or.inl hlt) k1 k2

theorem gap_congr {E E' : ℕ → Prop} (h : ∀ e, E e ↔ E' e) : Gap D E ↔ Gap D E' := by
  have : E = E' := funext fun e => propext (h e)
  rw [this]

theorem connected_iff (hs : IsSqrt sq) (ht : 0 < tol) (hp : D.Proper) :
    connected D (found sq D maxFloat tol walls s) ((found sq D maxFloat tol walls s).map (mark sq D maxFloat tol s.flux walls).row) walls.length = true ↔
    ∀ i < walls.length, ¬ Gap D (Belongs D tol walls i) := by
  unfold connected
  rw [List.all_eq_true]
  simp only [List.mem_range, Bool.or_eq_true, decide_eq_true_eq, loose_iff hp]
  refine forall_congr' fun i => forall_congr' fun _ => ?_
  have hg := gap_congr (D := D) (fun e => belongs_iff (sq := sq) (D := D) (maxFloat := maxFloat) (walls := walls) (s := s) hs ht i e)
  constructor
  · rintro (h | h)
    · rw [← hg]
      rintro ⟨p, q, r, -, -, -, ⟨-, e, he, -⟩, -⟩
      rw [List.isEmpty_iff] at h
      rw [h] at he
      simp at he
    · rwa [← hg]
  · intro h
    right
    rwa [← hg] at h

/-- **C82.** Exactly these calls succeed: walls with known names and parameters, parameters of each wall admissible, and, if messages are wanted, no wall with
more than two loose ends inside the domain. -/
theorem C82_accepts (hs : IsSqrt sq) (ht : 0 < tol) (hp : D.Proper) (hu : Untouched s) :
    (create sq D maxFloat tol verbose walls par dflt s).2 = none ↔
    D.discontinuous = true ∧ (∀ k x, (k, x) ∈ dflt → k ∈ params) ∧
    (∀ n d, (n, d) ∈ par → (∃ c, (n, c) ∈ walls) ∧ ∀ k x, (k, x) ∈ d → k ∈ params) ∧
    (∀ n c, (n, c) ∈ walls → ∀ s1 s2 h1 h2, Value par dflt n "s1" s1 → Value par dflt n "s2" s2 → Value par dflt n "h1" h1 → Value par dflt n "h2" h2 →
      0 ≤ s1 ∧ s1 < s2 ∧ 0 ≤ h1 ∧ h1 < h2) ∧
    (verbose = true → ∀ i < walls.length, ¬ Gap D (Belongs D tol walls i)) := by
  have hdk : (dflt.any fun e => !has (inForce s dflt) e.1) = false ↔ ∀ k x, (k, x) ∈ dflt → k ∈ params := by
    rw [List.any_eq_false]
    constructor
    · intro h k x hk
      have := h (k, x) hk
      simp only [Bool.not_eq_true, Bool.not_eq_false'] at this
      exact (has_inForce hu k).mp this
    · rintro h ⟨k, x⟩ hk
      simp only [Bool.not_eq_true, Bool.not_eq_false']
      exact (has_inForce hu k).mpr (h k x hk)
  have hpar : ∀ P : List (String × List (String × K)), parError walls (inForce s dflt) P = none ↔ ∀ n d, (n, d) ∈ P → (∃ c, (n, c) ∈ walls) ∧ ∀ k x, (k, x) ∈ d → k ∈ params := by
    intro P
    induction P with
    | nil => simp [parError]
    | cons x P ih =>
      obtain ⟨n, d⟩ := x
      unfold parError
      have hd : (d.any fun e => !has (inForce s dflt) e.1) = false ↔ ∀ k x, (k, x) ∈ d → k ∈ params := by
        rw [List.any_eq_false]
        constructor
        · intro h k x hk
          have := h (k, x) hk
          simp only [Bool.not_eq_true, Bool.not_eq_false'] at this
          exact (has_inForce hu k).mp this
        · rintro h ⟨k, x⟩ hk
          simp only [Bool.not_eq_true, Bool.not_eq_false']
          exact (has_inForce hu k).mpr (h k x hk)
      by_cases h1 : has walls n = true
      · rw [h1]
        simp only [Bool.not_true, Bool.false_eq_true, if_false]
        by_cases h2 : (d.any fun e => !has (inForce s dflt) e.1) = true
        · rw [if_pos h2]
          refine ⟨fun h => by simp at h, fun h => ?_⟩
          have := hd.mpr (h n d (by simp)).2
          rw [h2] at this
          simp at this
        · rw [if_neg h2, ih]
          rw [Bool.not_eq_true] at h2
          constructor
          · intro h n' d' hm
            rcases List.mem_cons.mp hm with hm | hm
            · obtain ⟨rfl, rfl⟩ := Prod.mk.inj hm
              exact ⟨(has_iff _ _).mp h1, hd.mp h2⟩
            · exact h n' d' hm
          · intro h n' d' hm
            exact h n' d' (List.mem_cons_of_mem _ hm)
      · have h1' : has walls n = false := by rwa [Bool.not_eq_true] at h1
        rw [h1']
        simp only [Bool.not_false, if_true]
        refine ⟨fun h => by simp at h, fun h => absurd ((has_iff _ _).mpr (h n d (by simp)).1) h1⟩
  have htab : tableError (walls.map fun w => tableRow par (inForce s dflt) w.1) = none ↔ ∀ n c, (n, c) ∈ walls → ∀ s1 s2 h1 h2, Value par dflt n "s1" s1 →
      Value par dflt n "s2" s2 → Value par dflt n "h1" h1 → Value par dflt n "h2" h2 → 0 ≤ s1 ∧ s1 < s2 ∧ 0 ≤ h1 ∧ h1 < h2 := by
    rw [tableError_none]
    constructor
    · intro h n c hm s1 s2 h1 h2 v1 v2 v3 v4
      obtain ⟨q', s1', s2', h1', h2', e, -, w1, w2, w3, w4⟩ := tableRow_eq (par := par) (dflt := dflt) hu n
      obtain ⟨k1, k2, k3, k4⟩ := h _ (List.mem_map.mpr ⟨(n, c), hm, e⟩)
      rw [value_unique v1 w1, value_unique v2 w2, value_unique v3 w3, value_unique v4 w4]
      exact ⟨k2, k1, k4, k3⟩
    · intro h r hr
      obtain ⟨⟨n, c⟩, hm, rfl⟩ := List.mem_map.mp hr
      obtain ⟨q', s1', s2', h1', h2', e, -, w1, w2, w3, w4⟩ := tableRow_eq (par := par) (dflt := dflt) hu n
      obtain ⟨k1, k2, k3, k4⟩ := h n c hm _ _ _ _ w1 w2 w3 w4
      simp only [e]
      exact ⟨k2, k1, k4, k3⟩
  constructor
  · intro h
    have h' : create sq D maxFloat tol verbose walls par dflt s = ((create sq D maxFloat tol verbose walls par dflt s).1, none) := by rw [← h]
    obtain ⟨-, k1, k2, k3, k4, -, k6⟩ := success h'
    exact ⟨k1, hdk.mp k2, (hpar par).mp k3, htab.mp k4, fun hv => (connected_iff hs ht hp).mp (k6 hv)⟩
  · rintro ⟨k1, k2, k3, k4, k5⟩
    rcases create_eq (sq := sq) (D := D) (maxFloat := maxFloat) (tol := tol) (verbose := verbose) (walls := walls) (par := par) (dflt := dflt) (s := s) k1 with
      ⟨h2, -⟩ | ⟨h1, ⟨err, h2, -⟩ | ⟨h2, h3, ⟨err, h4, -⟩ | ⟨h4, h5, h6⟩⟩⟩
    · rw [hdk.mpr k2] at h2; simp at h2
    · rw [(hpar par).mpr k3] at h2; simp at h2
    · rw [htab.mpr k4] at h4; simp at h4
    · rw [h6, if_neg]
      simp only [Bool.and_eq_true, Bool.not_eq_true', not_and, Bool.not_eq_false]
      exact fun hv => (connected_iff hs ht hp).mpr (k5 hv)

/-- **C82.** A wall whose edges follow one another from place to place has no gap in this sense, so it is never refused. -/
theorem C82_chain (hp : D.Proper) {E : ℕ → Prop} {P : List (K × K)} (hnd : P.Nodup)
    (h1 : ∀ e, E e → ∃ k, ∃ h : k + 1 < P.length, (∀ p, D.End e p ↔ p = P[k] ∨ p = P[k + 1]))
    (h2 : ∀ k, ∀ h : k + 1 < P.length, ∃ e, E e ∧ D.End e P[k] ∧ D.End e P[k + 1]) : ¬ Gap D E := by
  have key : ∀ p, D.Loose E p → ∃ k, ∃ h : k < P.length, p = P[k] ∧ (k = 0 ∨ k + 1 = P.length) := by
    rintro p ⟨-, e, he, hep, hu⟩
    obtain ⟨k, hk, hend⟩ := h1 e he
    have hpk : ∃ k', ∃ h : k' < P.length, p = P[k'] := by
      rcases (hend p).mp hep with h | h
      · exact ⟨k, by omega, h⟩
      · exact ⟨k + 1, hk, h⟩
    obtain ⟨k', hk', rfl⟩ := hpk
    refine ⟨k', hk', rfl, ?_⟩
    by_contra hne
    push Not at hne
    obtain ⟨m, rfl⟩ : ∃ m, k' = m + 1 := ⟨k' - 1, by omega⟩
    obtain ⟨f, f1, f2, f3⟩ := h2 m (by omega)
    obtain ⟨g, g1, g2, g3⟩ := h2 (m + 1) (by omega)
    have hfg : D.mid f = D.mid g := (hu f f1 f3).trans (hu g g1 g2).symm
    have hfe := hp.2 f g hfg _ f2
    -- then `g` has three ends
    obtain ⟨l, hl, hl'⟩ := h1 g g1
    have a1 := (hl' _).mp hfe
    have a2 := (hl' _).mp g2
    have a3 := (hl' _).mp g3
    have inj : ∀ {a b : ℕ} (ha : a < P.length) (hb : b < P.length), P[a] = P[b] → a = b := fun ha hb h => (List.Nodup.getElem_inj_iff hnd).mp h
    rcases a1 with a1 | a1 <;> rcases a2 with a2 | a2 <;> rcases a3 with a3 | a3 <;>
    · have b1 := inj _ _ a1
      have b2 := inj _ _ a2
      have b3 := inj _ _ a3
      omega
  rintro ⟨p, q, r, hpq, hpr, hqr, l1, l2, l3⟩
  obtain ⟨a, ha, rfl, a1⟩ := key p l1
  obtain ⟨b, hb, rfl, b1⟩ := key q l2
  obtain ⟨c, hc, rfl, c1⟩ := key r l3
  have n1 : a ≠ b := by rintro rfl; exact hpq rfl
  have n2 : a ≠ c := by rintro rfl; exact hpr rfl
  have n3 : b ≠ c := by rintro rfl; exact hqr rfl
  omega

/-! ## Limits of the code -/

/-- **C82, a limit of the code.** Without messages a gap is never reported. -/
theorem C82_silent : (create sq D maxFloat tol false walls par dflt s).2 ≠ some .gap := by
  unfold create
  intro h
  split at h
  · simp at h
  · simp only at h
    generalize (if s.names.length > 0 then s.init else s) = t at h
    split at h
    · simp at h
    · split at h
      · rename_i e he
        simp only [Option.some.injEq] at h
        subst h
        -- the checks of parameters raise other exceptions
        have : ∀ P : List (String × List (String × K)), ∀ d, parError walls d P ≠ some .gap := by
          intro P d
          induction P with
          | nil => simp [parError]
          | cons x P ih =>
            unfold parError
            split_ifs
            · simp
            · simp
            · exact ih
        exact this _ _ he
      · split at h
        · rename_i e he
          simp only [Option.some.injEq] at h
          subst h
          unfold tableError at he
          split_ifs at he <;> simp at he
        · simp at h

/-- **C82, a limit of the code.** After a second call, edges of the deleted walls are still river wall edges: with the elevation `-maxFloat` and row `-1` of
the table. -/
theorem C82_again (hs : IsSqrt sq) (ht : 0 < tol) (h : create sq D maxFloat tol verbose walls par dflt s = (s', none)) {e : ℕ} (he : e < 3 * D.n)
    (hold : s.flux e = 1) (hno : ¬ Walled D tol walls e) :
    s'.flux e = 1 ∧ ∃ c, s'.counter[e]? = some (c + 1) ∧ s'.elevation[c]? = some (-maxFloat) ∧ s'.rowIndex[c]? = some (-1) := by
  obtain ⟨h1, h2, h3, h4, h5, h6, -⟩ := (success h).1
  rw [h1, h2, h3, h6]
  rcases mark_spec (sq := sq) (D := D) (maxFloat := maxFloat) hs ht s.flux walls e with ⟨-, k1, k2, k3⟩ | ⟨i, j, a, b, k1, k2, -⟩
  · have k4 := k1.trans hold
    refine ⟨k4, ?_⟩
    obtain ⟨c, c1, c2, e1⟩ := (lookup (mark sq D maxFloat tol s.flux walls).flux he (mark sq D maxFloat tol s.flux walls).elev).1 k4
    obtain ⟨c', c3, c4, e2⟩ := (lookup (mark sq D maxFloat tol s.flux walls).flux he (mark sq D maxFloat tol s.flux walls).row).1 k4
    rw [← e1] at e2
    subst e2
    rw [k2] at c2
    rw [k3] at c4
    exact ⟨c', c1, c2, c4⟩
  · exact absurd ⟨i, j, a, b, k1, k2⟩ hno

/-- **C82, a limit of the code.** A call refused for its parameters has marked the edges, but there is no table for them. -/
theorem C82_refused (hs : IsSqrt sq) (ht : 0 < tol) (h : create sq D maxFloat tol verbose walls par dflt (St.fresh D) = (s', some .submergence)) {e : ℕ}
    (hw : Walled D tol walls e) : s'.flux e = 1 ∧ s'.table = [[-9 * 10 ^ 20]] := by
  have hd : D.discontinuous = true := by
    by_contra hd
    rw [Bool.not_eq_true] at hd
    unfold create at h
    rw [if_pos hd] at h
    simp at h
  unfold create at h
  simp only [hd, Bool.true_eq_false, if_false] at h
  have hn : ¬ (St.fresh D).names.length > 0 := by simp [St.fresh, St.init]
  simp only [if_neg hn] at h
  split at h
  · simp at h
  · split at h
    · rename_i er he
      simp only [Prod.mk.injEq, Option.some.injEq] at h
      obtain ⟨-, rfl⟩ := h
      have : ∀ P : List (String × List (String × K)), ∀ d, parError walls d P ≠ some .submergence := by
        intro P d
        induction P with
        | nil => simp [parError]
        | cons x P ih =>
          unfold parError
          split_ifs
          · simp
          · simp
          · exact ih
      exact absurd he (this _ _)
    · split at h
      · simp only [Prod.mk.injEq] at h
        obtain ⟨rfl, -⟩ := h
        exact ⟨(walled_iff hs ht _ e).mpr (Or.inl hw), rfl⟩
      · split at h <;> simp at h

end Verif.Wall
