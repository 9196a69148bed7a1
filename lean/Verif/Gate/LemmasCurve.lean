import Verif.Gate.Spec
import Mathlib.Data.List.Induction

namespace Verif.Gate

set_option linter.unusedSectionVars false

variable {K : Type*} [Field K] [LinearOrder K] [IsStrictOrderedRing K]

/-! ## Broken lines -/

theorem line_left (p q : K × K) : line p q p.1 = p.2 := by unfold line; rw [sub_self, mul_zero, zero_add]

theorem line_right {p q : K × K} (h : p.1 < q.1) : line p q q.1 = q.2 := by
  unfold line
  rw [div_mul_cancel₀ _ (sub_pos.mpr h).ne', sub_add_cancel]

theorem line_mono {p q : K × K} (h : p.1 < q.1) (h2 : p.2 < q.2) {x x' : K} (hx : x < x') : line p q x < line p q x' := by
  unfold line
  have : 0 < (q.2 - p.2) / (q.1 - p.1) := div_pos (sub_pos.mpr h2) (sub_pos.mpr h)
  have := mul_lt_mul_of_pos_left (sub_lt_sub_right hx p.1) this
  linarith

theorem rising_cons {p q : K × K} {l : List (K × K)} : Rising (p :: q :: l) ↔ (p.1 < q.1 ∧ p.2 < q.2) ∧ Rising (q :: l) :=
  List.isChain_cons_cons

theorem rising_head_le {p : K × K} {l : List (K × K)} (h : Rising (p :: l)) : ∀ q ∈ p :: l, p.1 ≤ q.1 ∧ p.2 ≤ q.2 := by
  induction l generalizing p with
  | nil => intro q hq; rw [List.mem_singleton] at hq; subst hq; exact ⟨le_rfl, le_rfl⟩
  | cons a l ih =>
    intro q hq
    obtain ⟨h1, h2⟩ := rising_cons.mp h
    rcases List.mem_cons.mp hq with rfl | hq
    · exact ⟨le_rfl, le_rfl⟩
    · obtain ⟨a1, a2⟩ := ih h2 q hq
      exact ⟨h1.1.le.trans a1, h1.2.le.trans a2⟩

/-- What the evaluation gives on points in order. -/
theorem segment_spec (l : List (K × K)) : ∀ {p b : K × K}, Rising (p :: l) → (p :: l).getLast? = some b → p.1 < b.1 →
    ∀ {x : K}, p.1 ≤ x → x ≤ b.1 → ∃ y, segment (p :: l) x = some y ∧ OnCurve (p :: l) x y ∧ p.2 ≤ y ∧ y ≤ b.2 ∧ (x = p.1 → y = p.2) ∧
      (p.1 < x → p.2 < y) := by
  induction l with
  | nil =>
    intro p b _ hb hpb
    rw [List.getLast?_singleton] at hb
    obtain rfl := Option.some.inj hb
    exact absurd hpb (lt_irrefl _)
  | cons q l ih =>
    intro p b h hb hpb x hpx hxb
    obtain ⟨⟨h1, h2⟩, h3⟩ := rising_cons.mp h
    rw [List.getLast?_cons_cons] at hb
    have hbm : b ∈ q :: l := List.mem_of_getLast? hb
    by_cases hx : x ≤ q.1
    · have hseg : segment (p :: q :: l) x = some (line p q x) := by
        unfold segment; exact if_pos (Or.inl hx)
      have hlo : p.2 ≤ line p q x := by
        rcases eq_or_lt_of_le hpx with e | e
        · rw [← e, line_left]
        · rw [← line_left p q]; exact (line_mono h1 h2 e).le
      have hhi : line p q x ≤ q.2 := by
        rcases eq_or_lt_of_le hx with e | e
        · rw [e, line_right h1]
        · rw [← line_right h1]; exact (line_mono h1 h2 e).le
      refine ⟨_, hseg, ⟨p, q, ⟨[], l, rfl⟩, hpx, hx, ?_⟩, hlo, hhi.trans (rising_head_le h3 b hbm).2, fun e => by rw [e, line_left],
        fun e => by have := line_mono h1 h2 e; rwa [line_left] at this⟩
      unfold line
      rw [add_sub_cancel_right, mul_right_comm, div_mul_cancel₀ _ (sub_pos.mpr h1).ne']
    · have hx' := not_le.mp hx
      have hne : l ≠ [] := by
        rintro rfl
        rw [List.getLast?_singleton] at hb
        obtain rfl := Option.some.inj hb
        exact hx hxb
      have hseg : segment (p :: q :: l) x = segment (q :: l) x := by
        conv_lhs => unfold segment
        exact if_neg (by rintro (h | h); exacts [hx h, hne h])
      have hqb : q.1 < b.1 := hx'.trans_le hxb
      obtain ⟨y, y1, ⟨u, v, ⟨s, t, e⟩, hu⟩, y3, y4, -, -⟩ := ih h3 hb hqb hx'.le hxb
      exact ⟨y, hseg.trans y1, ⟨u, v, ⟨p :: s, t, by rw [← e]; rfl⟩, hu⟩, h2.le.trans y3, y4, fun e => by rw [e] at hx'; exact absurd (hx'.trans h1) (lt_irrefl _),
        fun _ => h2.trans_le y3⟩

theorem interp_spec {l : List (K × K)} (h : Rising l) {a b : K × K} (ha : l.head? = some a) (hb : l.getLast? = some b) (hab : a.1 < b.1) {x : K}
    (h1 : a.1 ≤ x) (h2 : x ≤ b.1) : ∃ y, interp l x = some y ∧ OnCurve l x y ∧ a.2 ≤ y ∧ y ≤ b.2 ∧ (x = a.1 → y = a.2) ∧ (a.1 < x → a.2 < y) := by
  cases l with
  | nil => cases ha
  | cons p l =>
    rw [List.head?_cons] at ha
    obtain rfl := Option.some.inj ha
    obtain ⟨y, y1, y2⟩ := segment_spec l h hb hab h1 h2
    refine ⟨y, ?_, y2⟩
    unfold interp
    rw [List.head?_cons, hb]
    simp only
    rw [if_neg (by rintro (h | h); exacts [not_lt.mpr h1 h, not_lt.mpr h2 h]), y1]

/-- Outside of the range there is no value. -/
theorem interp_range {l : List (K × K)} {a b : K × K} (ha : l.head? = some a) (hb : l.getLast? = some b) {x y : K} (h : interp l x = some y) :
    a.1 ≤ x ∧ x ≤ b.1 := by
  unfold interp at h
  rw [ha, hb] at h
  simp only at h
  split_ifs at h with hx
  push Not at hx
  exact hx

/-! ## Removal of repeated points -/

theorem rows_cons {p q : K × K} {l : List (K × K)} : Rows (p :: q :: l) ↔ (p.1 ≤ q.1 ∧ p.2 < q.2) ∧ Rows (q :: l) :=
  List.isChain_cons_cons

theorem rows_head {p : K × K} {l : List (K × K)} (h : Rows (p :: l)) : ∀ q ∈ l, p.1 ≤ q.1 ∧ p.2 < q.2 := by
  induction l generalizing p with
  | nil => intro q hq; cases hq
  | cons a l ih =>
    intro q hq
    obtain ⟨h1, h2⟩ := rows_cons.mp h
    rcases List.mem_cons.mp hq with rfl | hq
    · exact h1
    · obtain ⟨a1, a2⟩ := ih h2 q hq
      exact ⟨h1.1.trans a1, h1.2.trans a2⟩

theorem rows_tail {p : K × K} {l : List (K × K)} (h : Rows (p :: l)) : Rows l := List.IsChain.tail h

theorem rows_last {l : List (K × K)} (h : Rows l) {b : K × K} (hb : l.getLast? = some b) : ∀ q ∈ l, q.1 ≤ b.1 ∧ q.2 ≤ b.2 := by
  induction l with
  | nil => intro q hq; cases hq
  | cons p l ih =>
    intro q hq
    cases l with
    | nil =>
      rw [List.getLast?_singleton] at hb
      obtain rfl := Option.some.inj hb
      rw [List.mem_singleton] at hq
      subst hq
      exact ⟨le_rfl, le_rfl⟩
    | cons a l =>
      rw [List.getLast?_cons_cons] at hb
      have hbm : b ∈ a :: l := List.mem_of_getLast? hb
      rcases List.mem_cons.mp hq with rfl | hq
      · have := rows_head h b hbm
        exact ⟨this.1, this.2.le⟩
      · exact ih (rows_tail h) hb q hq

/-- Rows followed by blanks. -/
def padded (l : List (K × K)) (m : ℕ) : List (Option (K × K)) := l.map some ++ List.replicate m none

theorem filterMap_padded (l : List (K × K)) (m : ℕ) : (padded l m).filterMap id = l := by
  unfold padded
  rw [List.filterMap_append, List.filterMap_map]
  have h1 : List.filterMap (id ∘ some) l = l := by
    have : (id ∘ some : K × K → Option (K × K)) = some := rfl
    rw [this, List.filterMap_some]
  have h2 : List.filterMap id (List.replicate m (none : Option (K × K))) = [] := by
    rw [List.filterMap_eq_nil_iff]
    intro a ha
    rw [List.eq_of_mem_replicate ha]; rfl
  rw [h1, h2, List.append_nil]

theorem foldl_max (f : K × K → K) (l : List (K × K)) : ∀ m : K, (∀ q ∈ l, f q ≤ m) → l.foldl (fun m q => max m (f q)) m = m := by
  induction l with
  | nil => exact fun m _ => rfl
  | cons a l ih =>
    intro m h
    rw [List.foldl_cons, max_eq_left (h a List.mem_cons_self)]
    exact ih m fun q hq => h q (List.mem_cons_of_mem _ hq)

theorem nanmax_ge (f : K × K → K) (l : List (K × K)) : ∀ m : K, m ≤ l.foldl (fun m q => max m (f q)) m ∧ ∀ q ∈ l, f q ≤ l.foldl (fun m q => max m (f q)) m := by
  induction l with
  | nil => exact fun m => ⟨le_rfl, fun q hq => by cases hq⟩
  | cons a l ih =>
    intro m
    obtain ⟨h1, h2⟩ := ih (max m (f a))
    rw [List.foldl_cons]
    refine ⟨(le_max_left _ _).trans h1, fun q hq => ?_⟩
    rcases List.mem_cons.mp hq with rfl | hq
    · exact (le_max_right _ _).trans h1
    · exact h2 q hq

theorem foldl_max_le (f : K × K → K) (l : List (K × K)) (b : K) : ∀ m : K, m ≤ b → (∀ q ∈ l, f q ≤ b) → l.foldl (fun m q => max m (f q)) m ≤ b := by
  induction l with
  | nil => exact fun m hm _ => hm
  | cons a l ih =>
    intro m hm h
    rw [List.foldl_cons]
    exact ih _ (max_le hm (h a List.mem_cons_self)) fun q hq => h q (List.mem_cons_of_mem _ hq)

/-- The maximum over rows is attained where all others are not greater. -/
theorem nanmax_eq (f : K × K → K) {l : List (K × K)} {b : K × K} (hb : b ∈ l) (h : ∀ q ∈ l, f q ≤ f b) (m : ℕ) : nanmax f (padded l m) = f b := by
  unfold nanmax
  rw [filterMap_padded]
  cases l with
  | nil => cases hb
  | cons p l =>
    simp only
    apply le_antisymm
    · exact foldl_max_le f l _ _ (h p List.mem_cons_self) fun q hq => h q (List.mem_cons_of_mem _ hq)
    · rcases List.mem_cons.mp hb with rfl | hb
      · exact (nanmax_ge f l _).1
      · exact (nanmax_ge f l _).2 b hb

theorem keepRows_none (hm qm : K) (prev : Option (K × K)) (m : ℕ) : keepRows hm qm prev (List.replicate m none) = [] := by
  induction m generalizing prev with
  | zero => cases prev <;> rfl
  | succ m ih => rw [List.replicate_succ]; cases prev <;> exact ih none

theorem padded_cons (p : K × K) (l : List (K × K)) (m : ℕ) : padded (p :: l) m = some p :: padded l m := rfl

/-- What the loop keeps of rows that end with the largest head water `hm` and the largest discharge `qm`. -/
theorem keepRows_spec (hm qm : K) (m : ℕ) (l : List (K × K)) : ∀ prev : Option (K × K), Rows l →
    (∀ b, l.getLast? = some b → b = (hm, qm)) → (∀ a, prev = some a → ∀ q ∈ l, a.1 ≤ q.1) →
    let res := keepRows hm qm prev (padded l m)
    Rising res ∧ res.Sublist l ∧ (∀ a, prev = some a → a.1 ≠ hm → ∀ r ∈ res, a.1 < r.1) ∧
      (∀ p ∈ l, (p.1 ≠ hm ∧ prev.map Prod.fst = some p.1) ∨
        ∃ r ∈ res, r.1 = p.1 ∧ (p.1 ≠ hm → r.2 ≤ p.2) ∧ (p.1 = hm → r = (hm, qm))) := by
  induction l with
  | nil =>
    intro prev _ _ _ res
    have e : res = [] := keepRows_none hm qm prev m
    rw [e]
    exact ⟨List.isChain_nil, List.Sublist.refl _, fun _ _ _ r hr => (by cases hr), fun p hp => (by cases hp)⟩
  | cons p l ih =>
    intro prev hrows hlast hprev res
    have hl : ∀ q ∈ p :: l, q.1 ≤ hm ∧ q.2 ≤ qm := by
      obtain ⟨b, hb⟩ : ∃ b, (p :: l).getLast? = some b := ⟨_, List.getLast?_eq_some_getLast (List.cons_ne_nil _ _)⟩
      have := rows_last hrows hb
      rwa [hlast b hb] at this
    have hlast' : ∀ b, l.getLast? = some b → b = (hm, qm) := by
      intro b hb
      cases l with
      | nil => cases hb
      | cons q l => exact hlast b (by rw [List.getLast?_cons_cons]; exact hb)
    have hhead := rows_head hrows
    obtain ⟨i1, i2, i3, i4⟩ := ih (some p) (rows_tail hrows) hlast' (fun a ha q hq => by
      obtain rfl := Option.some.inj ha
      exact (hhead q hq).1)
    by_cases hc : (prev.map Prod.fst = some p.1 ∧ p.1 ≠ hm) ∨ (p.1 = hm ∧ p.2 < qm)
    · have e : res = keepRows hm qm (some p) (padded l m) := by
        show keepRows hm qm prev (padded (p :: l) m) = _
        rw [padded_cons]
        conv_lhs => unfold keepRows
        exact if_pos hc
      rw [e]
      refine ⟨i1, i2.cons p, ?_, ?_⟩
      · intro a ha hah r hr
        have hap := hprev a ha p List.mem_cons_self
        by_cases hph : p.1 = hm
        · have hrl : r ∈ l := i2.subset hr
          exact lt_of_lt_of_le (lt_of_le_of_ne (hap.trans (le_of_eq hph)) hah) (hph ▸ (hhead r hrl).1)
        · exact hap.trans_lt (i3 p rfl hph r hr)
      · intro q hq
        rcases List.mem_cons.mp hq with rfl | hq
        · rcases hc with ⟨h1, h2⟩ | ⟨h1, h2⟩
          · exact Or.inl ⟨h2, h1⟩
          · right
            have hne : l ≠ [] := by
              rintro rfl
              have := hlast q rfl
              rw [this] at h2
              exact lt_irrefl _ h2
            obtain ⟨b, hb⟩ : ∃ b, l.getLast? = some b := ⟨_, List.getLast?_eq_some_getLast hne⟩
            have hbe := hlast' b hb
            have hbm := List.mem_of_getLast? hb
            rcases i4 b hbm with ⟨hx, -⟩ | ⟨r, hr, hr1, -, hr3⟩
            · exact absurd (by rw [hbe]) hx
            · refine ⟨r, hr, ?_, fun hx => absurd h1 hx, fun _ => hr3 (by rw [hbe])⟩
              rw [hr1, hbe, h1]
        · rcases i4 q hq with ⟨hx, hy⟩ | hx
          · have hqp : p.1 = q.1 := Option.some.inj hy
            rcases hc with ⟨h1, h2⟩ | ⟨h1, h2⟩
            · exact Or.inl ⟨hx, by rw [← hqp]; exact h1⟩
            · exact absurd (hqp ▸ h1) hx
          · exact Or.inr hx
    · have e : res = p :: keepRows hm qm (some p) (padded l m) := by
        show keepRows hm qm prev (padded (p :: l) m) = _
        rw [padded_cons]
        conv_lhs => unfold keepRows
        exact if_neg hc
      rw [e]
      rw [not_or, not_and_or, not_and_or, not_not, not_lt] at hc
      obtain ⟨hc1, hc2⟩ := hc
      have hnext : ∀ r ∈ keepRows hm qm (some p) (padded l m), p.1 < r.1 ∧ p.2 < r.2 := by
        intro r hr
        have hrl : r ∈ l := i2.subset hr
        have hrp := hhead r hrl
        refine ⟨?_, hrp.2⟩
        by_cases hph : p.1 = hm
        · have : qm ≤ p.2 := hc2.resolve_left (not_not.mpr hph)
          have := (hl r (List.mem_cons_of_mem _ hrl)).2
          exact absurd hrp.2 (not_lt.mpr (by linarith))
        · exact i3 p rfl hph r hr
      refine ⟨?_, i2.cons_cons p, ?_, ?_⟩
      · unfold Rising
        rw [List.isChain_cons]
        exact ⟨fun r hr => hnext r (List.mem_of_mem_head? hr), i1⟩
      · intro a ha hah r hr
        have hap := hprev a ha p List.mem_cons_self
        have hlt : a.1 < p.1 := by
          refine lt_of_le_of_ne hap fun heq => ?_
          rcases hc1 with h | h
          · exact h (by rw [ha]; exact congrArg some heq)
          · exact hah (heq.trans h)
        rcases List.mem_cons.mp hr with rfl | hr
        · exact hlt
        · exact hlt.trans (hnext r hr).1
      · intro q hq
        rcases List.mem_cons.mp hq with rfl | hq
        · right
          refine ⟨q, List.mem_cons_self, rfl, fun _ => le_rfl, fun hx => ?_⟩
          have h1 : qm ≤ q.2 := hc2.resolve_left (not_not.mpr hx)
          have h2 := (hl q List.mem_cons_self).2
          exact Prod.ext hx (le_antisymm h2 h1)
        · right
          rcases i4 q hq with ⟨hx, hy⟩ | ⟨r, hr, hh⟩
          · have hqp : p.1 = q.1 := Option.some.inj hy
            exact ⟨p, List.mem_cons_self, hqp, fun _ => (hhead q hq).2.le, fun h => absurd h hx⟩
          · exact ⟨r, List.mem_cons_of_mem _ hr, hh⟩

end Verif.Gate
