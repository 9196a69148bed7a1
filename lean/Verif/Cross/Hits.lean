import Verif.Cross.Chord

/-! # What one triangle contributes -/

set_option linter.unusedSectionVars false

namespace Verif.Cross

open Verif.Polygon

variable {K : Type*} [Field K] [LinearOrder K] [IsStrictOrderedRing K]

theorem flag_iff {sq : K → K} (hs : IsSqrt sq) {rtol atol : K} (hr : 0 ≤ rtol) (ha : 0 ≤ atol) {p U V : Pt K}
    (hl : (p.y - U.y) * (V.x - U.x) - (p.x - U.x) * (V.y - U.y) = 0) (hn : OnSeg p U V ∨ ¬ Near margin p U V) :
    pointOnLine sq rtol atol p U V = true ↔ OnSeg p U V := by
  constructor
  · intro h
    rcases hn with hn | hn
    · exact hn
    · exact absurd (near_of_pointOnLine' hs hl h) hn
  · exact pointOnLine_of_onSeg hs hr ha

/-- Points an edge adds: common points of line and edge, such that every common point is between two of them. -/
theorem hits_spec {sq : K → K} (hs : IsSqrt sq) {rtol atol : K} (hr : 0 ≤ rtol) (ha : 0 ≤ atol) {A B U V : Pt K} (hAB : A ≠ B) (h : Sharp atol A B U V) :
    ∃ l, hits sq rtol atol A B U V = some l ∧ (∀ p ∈ l, OnSeg p A B ∧ OnSeg p U V) ∧
      (∀ q, OnSeg q A B → OnSeg q U V → q ∈ l ∨ ∃ a b, l = [a, b] ∧ OnSeg q a b) ∧
      (turn A B U V = 0 → (∃ a b, l = [a, b]) ∨ l = []) := by
  unfold hits
  by_cases ht : turn A B U V = 0
  · have hz : |turn A B U V| ≤ atol := by rw [ht, abs_zero]; exact ha
    have hp := inter_parallel (sq := sq) (rtol := rtol) hz
    have u1 : |(U.x - A.x) * (B.y - A.y) - (U.y - A.y) * (B.x - A.x)| = |turn A B A U| := by
      rw [← abs_neg]; congr 1; unfold turn; ring
    by_cases ho : turn A B A U = 0
    · -- on one line
      have lA : (A.y - U.y) * (V.x - U.x) - (A.x - U.x) * (V.y - U.y) = 0 := by
        unfold turn at ht ho
        by_cases hx : B.x - A.x = 0
        · have hy : B.y - A.y ≠ 0 := by
            intro hy; apply hAB; cases A; cases B; simp only at hx hy; rw [Pt.mk.injEq]; exact ⟨by linarith, by linarith⟩
          apply mul_left_cancel₀ hy
          linear_combination (U.y - A.y) * ht - (V.y - U.y) * ho
        · apply mul_left_cancel₀ hx
          linear_combination (U.x - A.x) * ht - (V.x - U.x) * ho
      have lB : (B.y - U.y) * (V.x - U.x) - (B.x - U.x) * (V.y - U.y) = 0 := by
        unfold turn at ht; linear_combination lA - ht
      have lU : (U.y - A.y) * (B.x - A.x) - (U.x - A.x) * (B.y - A.y) = 0 := by
        unfold turn at ho; linear_combination ho
      have lV : (V.y - A.y) * (B.x - A.x) - (V.x - A.x) * (B.y - A.y) = 0 := by
        unfold turn at ht; linear_combination lU + ht
      have f0 := flag_iff hs hr ha lA h.endA
      have f1 := flag_iff hs hr ha lB h.endB
      have f2 := flag_iff hs hr ha lU h.endU
      have f3 := flag_iff hs hr ha lV h.endV
      by_cases hex : ∃ q, OnSeg q A B ∧ OnSeg q U V
      · obtain ⟨q, q1, q2⟩ := hex
        have seg : ∀ q, OnSeg q A B → OnSeg q U V → ∃ a b, intersection sq rtol atol A B U V = .segment a b ∧ OnSeg q a b := by
          intro q q1 q2
          rcases C20_common_points_found sq hs rtol atol hr ha A B U V q (Or.inl ht) q1 q2 with hq | hq
          · exfalso
            rw [hp] at hq
            split_ifs at hq
            exact table_not_point _ _ _ _ hq
          · exact hq
        obtain ⟨a, b, hi, -⟩ := seg q q1 q2
        rw [hi]
        refine ⟨[a, b], rfl, ?_, ?_, fun _ => Or.inl ⟨a, b, rfl⟩⟩
        · intro v hv
          simp only [List.mem_cons, List.not_mem_nil, or_false] at hv
          have hi' := hi
          rw [hp] at hi'
          split_ifs at hi'
          rcases table_segment _ _ _ _ hi' v hv with ⟨rfl, hf⟩ | ⟨rfl, hf⟩ | ⟨rfl, hf⟩ | ⟨rfl, hf⟩
          · exact ⟨onSeg_left _ _, f0.mp hf⟩
          · exact ⟨onSeg_right _ _, f1.mp hf⟩
          · exact ⟨f2.mp hf, onSeg_left _ _⟩
          · exact ⟨f3.mp hf, onSeg_right _ _⟩
        · intro q q1 q2
          obtain ⟨a', b', hi', hq⟩ := seg q q1 q2
          rw [hi] at hi'
          obtain ⟨rfl, rfl⟩ := Inter.segment.inj hi'
          exact Or.inr ⟨a, b, rfl, hq⟩
      · have n0 : pointOnLine sq rtol atol A U V = false := by
          rw [← Bool.not_eq_true, f0]; exact fun hh => hex ⟨A, onSeg_left _ _, hh⟩
        have n1 : pointOnLine sq rtol atol B U V = false := by
          rw [← Bool.not_eq_true, f1]; exact fun hh => hex ⟨B, onSeg_right _ _, hh⟩
        have n2 : pointOnLine sq rtol atol U A B = false := by
          rw [← Bool.not_eq_true, f2]; exact fun hh => hex ⟨U, hh, onSeg_left _ _⟩
        have n3 : pointOnLine sq rtol atol V A B = false := by
          rw [← Bool.not_eq_true, f3]; exact fun hh => hex ⟨V, hh, onSeg_right _ _⟩
        refine ⟨[], ?_, by simp, fun q q1 q2 => absurd ⟨q, q1, q2⟩ hex, fun _ => Or.inr rfl⟩
        rw [hp, n0, n1, n2, n3]
        split_ifs <;> rfl
    · have hbig := h.offset.resolve_left ho
      rw [hp, if_neg (by rw [u1]; intro hh; linarith [hh.2])]
      refine ⟨[], rfl, by simp, ?_, fun _ => Or.inr rfl⟩
      intro q q1 q2
      exfalso
      apply ho
      obtain ⟨s, -, -, sx, sy⟩ := q1
      obtain ⟨t, -, -, tx, ty⟩ := q2
      unfold turn at ht ⊢
      have ex : U.x - A.x = s * (B.x - A.x) - t * (V.x - U.x) := by linarith
      have ey : U.y - A.y = s * (B.y - A.y) - t * (V.y - U.y) := by linarith
      rw [ex, ey]
      linear_combination (-t) * ht
  · have hbig := h.cross.resolve_left ht
    obtain ⟨v0, v1, ⟨ex, ey⟩, huniq, hi⟩ := inter_cross (sq := sq) hr ha hbig
    rw [hi]
    split_ifs with hc
    · refine ⟨_, rfl, ?_, ?_, fun hh => absurd hh ht⟩
      · intro p hp
        simp only [List.mem_cons, List.not_mem_nil, or_false] at hp
        subst hp
        exact ⟨⟨v0, hc.1, hc.2.1, rfl, rfl⟩, ⟨v1, hc.2.2.1, hc.2.2.2, ex, ey⟩⟩
      · rintro q ⟨s, s0, s1, sx, sy⟩ ⟨t, t0, t1, tx, ty⟩
        left
        obtain ⟨rfl, rfl⟩ := huniq s t (by rw [← sx, tx]) (by rw [← sy, ty])
        cases q
        simp only at sx sy
        simp [sx, sy]
    · refine ⟨[], rfl, by simp, ?_, fun hh => absurd hh ht⟩
      rintro q ⟨s, s0, s1, sx, sy⟩ ⟨t, t0, t1, tx, ty⟩
      obtain ⟨rfl, rfl⟩ := huniq s t (by rw [← sx, tx]) (by rw [← sy, ty])
      exact absurd ⟨s0, s1, t0, t1⟩ hc

theorem mem_insertKey {α : Type*} [DecidableEq α] (d : List α) (p q : α) : q ∈ insertKey d p ↔ q ∈ d ∨ q = p := by
  unfold insertKey
  split_ifs with h
  · constructor
    · exact Or.inl
    · rintro (h' | rfl)
      · exact h'
      · exact h
  · simp

theorem nodup_insertKey {α : Type*} [DecidableEq α] {d : List α} (h : d.Nodup) (p : α) : (insertKey d p).Nodup := by
  unfold insertKey
  split_ifs with hp
  · exact h
  · rw [List.nodup_append]
    refine ⟨h, List.nodup_singleton p, ?_⟩
    intro a ha b hb
    rw [List.mem_singleton] at hb
    rintro rfl
    exact hp (hb ▸ ha)

theorem fold_insertKey {α : Type*} [DecidableEq α] (h : List α) : ∀ l : List α, l.Nodup → (h.foldl insertKey l).Nodup ∧ ∀ q, q ∈ h.foldl insertKey l ↔ q ∈ l ∨ q ∈ h := by
  induction h with
  | nil => intro l hl; exact ⟨hl, by simp⟩
  | cons x h ih =>
    intro l hl
    obtain ⟨h1, h2⟩ := ih (insertKey l x) (nodup_insertKey hl x)
    refine ⟨h1, fun q => ?_⟩
    rw [List.foldl_cons, h2, mem_insertKey, List.mem_cons, or_assoc]

theorem collect_spec {sq : K → K} (hs : IsSqrt sq) {rtol atol : K} (hr : 0 ≤ rtol) (ha : 0 ≤ atol) {A B : Pt K} {T : Tri K} (hAB : A ≠ B)
    (h : SharpTri atol A B T) :
    ∃ D, collect sq rtol atol A B T = some D ∧ D.Nodup ∧ ∀ p, p ∈ D ↔ ∃ e ∈ T.sides, ∃ l, hits sq rtol atol A B e.1 e.2 = some l ∧ p ∈ l := by
  obtain ⟨l1, h1, -⟩ := hits_spec hs hr ha hAB (h (T.a, T.b) (by simp [Tri.sides]))
  obtain ⟨l2, h2, -⟩ := hits_spec hs hr ha hAB (h (T.b, T.c) (by simp [Tri.sides]))
  obtain ⟨l3, h3, -⟩ := hits_spec hs hr ha hAB (h (T.c, T.a) (by simp [Tri.sides]))
  obtain ⟨n1, m1⟩ := fold_insertKey l1 [] List.nodup_nil
  obtain ⟨n2, m2⟩ := fold_insertKey l2 _ n1
  obtain ⟨n3, m3⟩ := fold_insertKey l3 _ n2
  refine ⟨_, ?_, n3, ?_⟩
  · unfold collect Tri.sides
    simp only [List.foldl_cons, List.foldl_nil, Option.bind_some, h1, h2, h3, Option.map_some]
  · intro p
    rw [m3, m2, m1]
    simp only [Tri.sides, List.mem_cons, List.not_mem_nil, or_false, false_or, exists_eq_or_imp, exists_eq_left, h1, h2, h3, Option.some.injEq,
      exists_eq_left', or_assoc]

/-- Corner cases of the line with respect to a triangle: the interval of fractions inside and the points found. -/
theorem found {sq : K → K} (hs : IsSqrt sq) {rtol atol : K} (hr : 0 ≤ rtol) (ha : 0 ≤ atol) {A B : Pt K} {T : Tri K} (hAB : A ≠ B) (hT : T.Ccw)
    (h : SharpTri atol A B T) {a b : K} (a0 : 0 ≤ a) (ab : a ≤ b) (b1 : b ≤ 1)
    (hS : ∀ t, 0 ≤ t → t ≤ 1 → (T.Has (along A B t) ↔ a ≤ t ∧ t ≤ b)) {D : List (Pt K)} (hD : collect sq rtol atol A B T = some D) (p : Pt K) :
    p ∈ D ↔ ∃ t, (t = a ∨ t = b) ∧ p = along A B t ∧ ∃ e ∈ T.sides, ori e.1 e.2 (along A B t) = 0 := by
  obtain ⟨D', hD', -, hm⟩ := collect_spec hs hr ha hAB h
  rw [hD] at hD'
  obtain rfl := Option.some.inj hD'
  -- members are in the triangle
  have sound : ∀ e ∈ T.sides, ∀ l, hits sq rtol atol A B e.1 e.2 = some l → ∀ q ∈ l, ∃ t, q = along A B t ∧ a ≤ t ∧ t ≤ b ∧ ori e.1 e.2 (along A B t) = 0 := by
    intro e he l hl q hq
    obtain ⟨l', hl', hin, -⟩ := hits_spec hs hr ha hAB (h e he)
    rw [hl] at hl'
    obtain rfl := Option.some.inj hl'
    obtain ⟨q1, q2⟩ := hin q hq
    obtain ⟨t, t0, t1, rfl⟩ := onSeg_along.mp q1
    obtain ⟨g1, g2⟩ := (onSide_iff hT he _).mp q2
    obtain ⟨g3, g4⟩ := (hS t t0 t1).mp g1
    exact ⟨t, rfl, g3, g4, g2⟩
  rw [hm]
  constructor
  · rintro ⟨e, he, l, hl, hp⟩
    obtain ⟨t, rfl, t1, t2, t3⟩ := sound e he l hl p hp
    refine ⟨t, ?_, rfl, e, he, t3⟩
    rw [ori_along] at t3
    rcases lt_trichotomy (ori e.1 e.2 A) (ori e.1 e.2 B) with hlt | heq | hgt
    · -- enters here
      left
      by_contra hne
      have hlt' : a < t := lt_of_le_of_ne t1 (Ne.symm hne)
      have := (has_iff hT _).mp ((hS a a0 (ab.trans b1)).mpr ⟨le_rfl, ab⟩) e he
      rw [ori_along] at this
      have : (t - a) * (ori e.1 e.2 B - ori e.1 e.2 A) ≤ 0 := by linarith
      have := mul_pos (sub_pos.mpr hlt') (sub_pos.mpr hlt)
      linarith
    · -- along the edge
      obtain ⟨l', hl', hin, hcov, hpar⟩ := hits_spec hs hr ha hAB (h e he)
      rw [hl] at hl'
      obtain rfl := Option.some.inj hl'
      have hzero : ∀ r, ori e.1 e.2 (along A B r) = 0 := by
        intro r
        rw [ori_along, ← heq]
        rw [← heq] at t3
        linarith
      have hturn : turn A B e.1 e.2 = 0 := by
        have : turn A B e.1 e.2 = ori e.1 e.2 A - ori e.1 e.2 B := by unfold turn ori; ring
        rw [this, heq, sub_self]
      have onE : ∀ r, a ≤ r → r ≤ b → OnSeg (along A B r) A B ∧ OnSeg (along A B r) e.1 e.2 := by
        intro r r1 r2
        have r0 := a0.trans r1
        have r1' := r2.trans b1
        exact ⟨onSeg_along.mpr ⟨r, r0, r1', rfl⟩, (onSide_iff hT he _).mpr ⟨(hS r r0 r1').mpr ⟨r1, r2⟩, hzero r⟩⟩
      rcases hpar hturn with ⟨u, v, rfl⟩ | rfl
      · obtain ⟨s, rfl, s1, s2, -⟩ := sound e he _ hl u (by simp)
        obtain ⟨s', rfl, s1', s2', -⟩ := sound e he _ hl v (by simp)
        have cover : ∀ r, a ≤ r → r ≤ b → (s ≤ r ∧ r ≤ s') ∨ (s' ≤ r ∧ r ≤ s) := by
          intro r r1 r2
          rcases hcov _ (onE r r1 r2).1 (onE r r1 r2).2 with hq | ⟨u, v, huv, hq⟩
          · simp only [List.mem_cons, List.not_mem_nil, or_false] at hq
            rcases hq with hq | hq <;> have := along_inj hAB hq <;> subst this
            · rcases le_total r s' with hh | hh
              · exact Or.inl ⟨le_rfl, hh⟩
              · exact Or.inr ⟨hh, le_rfl⟩
            · rcases le_total s r with hh | hh
              · exact Or.inl ⟨hh, le_rfl⟩
              · exact Or.inr ⟨le_rfl, hh⟩
          · simp only [List.cons.injEq, and_true] at huv
            obtain ⟨rfl, rfl⟩ := huv
            exact btw_along hAB hq
        have ca := cover a le_rfl ab
        have cb := cover b ab le_rfl
        simp only [List.mem_cons, List.not_mem_nil, or_false] at hp
        rcases hp with hp | hp <;> have := along_inj hAB hp <;> subst this
        · rcases ca with ca | ca
          · exact Or.inl (le_antisymm ca.1 t1)
          · rcases cb with cb | cb
            · right; exact le_antisymm t2 (by linarith [ca.1, ca.2, cb.1, cb.2])
            · exact Or.inr (le_antisymm t2 cb.2)
        · rcases ca with ca | ca
          · rcases cb with cb | cb
            · exact Or.inr (le_antisymm t2 cb.2)
            · right; exact le_antisymm t2 (by linarith [ca.1, ca.2, cb.1, cb.2])
          · exact Or.inl (le_antisymm ca.1 t1)
      · simp at hp
    · right
      by_contra hne
      have hlt' : t < b := lt_of_le_of_ne t2 hne
      have := (has_iff hT _).mp ((hS b (a0.trans ab) b1).mpr ⟨ab, le_rfl⟩) e he
      rw [ori_along] at this
      have h1 : 0 ≤ (b - t) * (ori e.1 e.2 B - ori e.1 e.2 A) := by linarith
      have := mul_pos (sub_pos.mpr hlt') (sub_pos.mpr hgt)
      linarith
  · rintro ⟨t, ht, rfl, e, he, hz⟩
    have tb : a ≤ t ∧ t ≤ b := by rcases ht with rfl | rfl <;> exact ⟨by first | exact le_rfl | exact ab, by first | exact le_rfl | exact ab⟩
    have t0 := a0.trans tb.1
    have t1 := tb.2.trans b1
    obtain ⟨l, hl, -, hcov, -⟩ := hits_spec hs hr ha hAB (h e he)
    rcases hcov _ (onSeg_along.mpr ⟨t, t0, t1, rfl⟩) ((onSide_iff hT he _).mpr ⟨(hS t t0 t1).mpr tb, hz⟩) with hq | ⟨u, v, rfl, hq⟩
    · exact ⟨e, he, l, hl, hq⟩
    · obtain ⟨s, rfl, s1, s2, -⟩ := sound e he _ hl u (by simp)
      obtain ⟨s', rfl, s1', s2', -⟩ := sound e he _ hl v (by simp)
      refine ⟨e, he, _, hl, ?_⟩
      simp only [List.mem_cons, List.not_mem_nil, or_false]
      rcases btw_along hAB hq with hh | hh <;> rcases ht with rfl | rfl
      · left; rw [le_antisymm hh.1 s1]
      · right; rw [le_antisymm hh.2 s2']
      · right; rw [le_antisymm hh.1 s1']
      · left; rw [le_antisymm hh.2 s2]

theorem inside_iff {sq : K → K} (hs : IsSqrt sq) {T : Tri K} {p : Pt K} (h : ∀ e ∈ T.sides, OnSeg p e.1 e.2 ∨ ¬ Near margin p e.1 e.2) (hT : T.Ccw) :
    isInsidePolygon sq false p [T.a, T.b, T.c] = some true ↔ T.Inner p := by
  have side : ∀ a b, Side [T.a, T.b, T.c] a b ↔ (a, b) ∈ T.sides := by
    intro a b
    rw [side_iff]
    simp [edges, Tri.sides]
  by_cases hon : ∃ e ∈ T.sides, OnSeg p e.1 e.2
  · obtain ⟨e, he, hp⟩ := hon
    have := C18_boundary sq hs false [T.a, T.b, T.c] p e.1 e.2 ((side _ _).mpr he) hp
    rw [this]
    simp only [Option.some.injEq, Bool.false_eq_true, false_iff]
    intro hi
    have h1 := (inner_iff hT p).mp hi e he
    rw [((onSide_iff hT he p).mp hp).2] at h1
    exact lt_irrefl _ h1
  · refine C18_triangle sq hs false T.a T.b T.c p ?_
    intro a b hab hn
    have hm := (side a b).mp hab
    rcases h _ hm with h1 | h1
    · exact hon ⟨_, hm, h1⟩
    · exact h1 hn

/-- What a triangle contributes: its chord, unless the line begins and ends inside. -/
theorem contribution_spec {sq : K → K} (hs : IsSqrt sq) {rtol atol : K} (hr : 0 ≤ rtol) (ha : 0 ≤ atol) {A B : Pt K} {T : Tri K} (hAB : A ≠ B)
    (hT : T.Ccw) (h : SharpTri atol A B T) :
    (contribution sq rtol atol A B T = some none ∧ ((∀ s t, ¬ Chord A B T s t) ∨ (T.Inner A ∧ T.Inner B))) ∨
    ∃ s t, Chord A B T s t ∧ ¬ (T.Inner A ∧ T.Inner B) ∧
      (contribution sq rtol atol A B T = some (some (along A B s, along A B t)) ∨
        contribution sq rtol atol A B T = some (some (along A B t, along A B s))) := by
  obtain ⟨D, hD, hnd, -⟩ := collect_spec hs hr ha hAB h
  have iA := inside_iff hs (T := T) (p := A) (fun e he => (h e he).endA) hT
  have iB := inside_iff hs (T := T) (p := B) (fun e he => (h e he).endB) hT
  have hpart := part A B T.sides
  simp only [← has_iff hT] at hpart
  unfold contribution
  rw [hD]
  simp only [Option.bind_some]
  have hA : along A B 0 = A := along_zero A B
  have hB : along A B 1 = B := along_one A B
  have inner_has : ∀ p, T.Inner p → T.Has p := fun p hp => (has_iff hT p).mpr fun e he => ((inner_iff hT p).mp hp e he).le
  rcases hpart with hno | ⟨a, b, a0, ab, b1, hS, enda, endb⟩
  · have hnil : D = [] := by
      obtain ⟨D', hD', -, hm⟩ := collect_spec hs hr ha hAB h
      rw [hD] at hD'
      obtain rfl := Option.some.inj hD'
      rw [List.eq_nil_iff_forall_not_mem]
      intro p hp
      obtain ⟨e, he, l, hl, hpl⟩ := (hm p).mp hp
      obtain ⟨l', hl', hin, -⟩ := hits_spec hs hr ha hAB (h e he)
      rw [hl] at hl'
      obtain rfl := Option.some.inj hl'
      obtain ⟨q1, q2⟩ := hin p hpl
      obtain ⟨t, t0, t1, rfl⟩ := onSeg_along.mp q1
      exact hno t t0 t1 ((onSide_iff hT he _).mp q2).1
    left
    subst hnil
    refine ⟨rfl, Or.inl ?_⟩
    rintro s t ⟨s0, st, t1, hst⟩
    exact hno s s0 (st.le.trans t1) ((hst s s0 (st.le.trans t1)).mpr ⟨le_rfl, st.le⟩)
  · have hmem := found hs hr ha hAB hT h a0 ab b1 hS hD
    have hasa := (hS a a0 (ab.trans b1)).mpr ⟨le_rfl, ab⟩
    have hasb := (hS b (a0.trans ab) b1).mpr ⟨ab, le_rfl⟩
    -- a point is on the boundary or strictly inside
    have dich : ∀ p, T.Has p → (∃ e ∈ T.sides, ori e.1 e.2 p = 0) ∨ T.Inner p := by
      intro p hp
      by_cases hb : ∃ e ∈ T.sides, ori e.1 e.2 p = 0
      · exact Or.inl hb
      · right
        rw [inner_iff hT]
        intro e he
        exact lt_of_le_of_ne ((has_iff hT p).mp hp e he) fun h0 => hb ⟨e, he, h0.symm⟩
    have excl : ∀ p, (∃ e ∈ T.sides, ori e.1 e.2 p = 0) → ¬ T.Inner p := by
      rintro p ⟨e, he, h0⟩ hi
      have := (inner_iff hT p).mp hi e he
      rw [h0] at this
      exact lt_irrefl _ this
    have ia : T.Inner (along A B a) → a = 0 := by
      intro hi
      rcases enda with h0 | ⟨e, he, -, h0⟩
      · exact h0
      · exact absurd hi (excl _ ⟨e, he, h0⟩)
    have ib : T.Inner (along A B b) → b = 1 := by
      intro hi
      rcases endb with h0 | ⟨e, he, -, h0⟩
      · exact h0
      · exact absurd hi (excl _ ⟨e, he, h0⟩)
    have inA : T.Inner A → a = 0 := fun hi => le_antisymm ((hS 0 le_rfl zero_le_one).mp (by rw [hA]; exact inner_has A hi)).1 a0
    have inB : T.Inner B → b = 1 := fun hi => le_antisymm b1 ((hS 1 zero_le_one le_rfl).mp (by rw [hB]; exact inner_has B hi)).2
    have lists : ∀ (D : List (Pt K)) (p : Pt K), D.Nodup → (∀ q, q ∈ D ↔ q = p) → D = [p] := by
      intro D p hn hq
      have h1 : D.Perm [p] := (List.perm_ext_iff_of_nodup hn (List.nodup_singleton p)).mpr (by simpa using hq)
      exact List.perm_singleton.mp h1
    rcases ab.eq_or_lt with rfl | hlt
    · -- touches in a point
      have hbd : ∃ e ∈ T.sides, ori e.1 e.2 (along A B a) = 0 := by
        rcases dich _ hasa with hb | hi
        · exact hb
        · have := ia hi
          have := ib hi
          linarith [zero_lt_one (α := K)]
      have hD1 : D = [along A B a] := by
        refine lists D _ hnd fun q => ?_
        rw [hmem]
        constructor
        · rintro ⟨t, ht, rfl, -⟩
          rcases ht with rfl | rfl <;> rfl
        · rintro rfl
          exact ⟨a, Or.inl rfl, rfl, hbd⟩
      left
      have nA : ¬ T.Inner A := by
        intro hi
        have := inA hi
        subst this
        rw [hA] at hbd
        exact excl A hbd hi
      have nB : ¬ T.Inner B := by
        intro hi
        have := inB hi
        subst this
        rw [hB] at hbd
        exact excl B hbd hi
      refine ⟨?_, Or.inl ?_⟩
      · rw [hD1, if_pos (by rfl), if_neg (by rw [iB]; exact nB), if_neg (by rw [iA]; exact nA)]
      · rintro s t ⟨s0, st, t1, hst⟩
        have h1 := (hS s s0 (st.le.trans t1)).mp ((hst s s0 (st.le.trans t1)).mpr ⟨le_rfl, st.le⟩)
        have h2 := (hS t (s0.trans st.le) t1).mp ((hst t (s0.trans st.le) t1).mpr ⟨st.le, le_rfl⟩)
        linarith [h1.1, h2.2]
    · have hch : Chord A B T a b := ⟨a0, hlt, b1, hS⟩
      have hne : along A B a ≠ along A B b := fun hh => hlt.ne (along_inj hAB hh)
      rcases dich _ hasa with ba | ia' <;> rcases dich _ hasb with bb | ib'
      · -- both on the boundary
        right
        have hp : D.Perm [along A B a, along A B b] := by
          refine (List.perm_ext_iff_of_nodup hnd (by simp [hne])).mpr fun q => ?_
          rw [hmem]
          simp only [List.mem_cons, List.not_mem_nil, or_false]
          constructor
          · rintro ⟨t, ht, rfl, -⟩
            rcases ht with rfl | rfl
            · exact Or.inl rfl
            · exact Or.inr rfl
          · rintro (rfl | rfl)
            · exact ⟨a, Or.inl rfl, rfl, ba⟩
            · exact ⟨b, Or.inr rfl, rfl, bb⟩
        have hl : D.length = 2 := hp.length_eq
        refine ⟨a, b, hch, ?_, ?_⟩
        · rintro ⟨hi, -⟩
          have := inA hi
          subst this
          rw [hA] at ba
          exact excl A ba hi
        · rw [if_neg (by omega)]
          match D, hl, hp with
          | [p, q], _, hp =>
            simp only [Option.some.injEq, Prod.mk.injEq]
            have hq : p = along A B a ∨ p = along A B b := by
              have := hp.mem_iff (a := p)
              simpa using this
            have hq' : q = along A B a ∨ q = along A B b := by
              have := hp.mem_iff (a := q)
              simpa using this
            have hpq : p ≠ q := by
              intro hh
              rw [hh] at hnd
              simp at hnd
            rcases hq with rfl | rfl <;> rcases hq' with rfl | rfl
            · exact absurd rfl hpq
            · exact Or.inl ⟨rfl, rfl⟩
            · exact Or.inr ⟨rfl, rfl⟩
            · exact absurd rfl hpq
      · -- ends inside
        have hb1 := ib ib'
        subst hb1
        rw [hB] at ib'
        have hD1 : D = [along A B a] := by
          refine lists D _ hnd fun q => ?_
          rw [hmem]
          constructor
          · rintro ⟨t, ht, rfl, hbd⟩
            rcases ht with rfl | rfl
            · rfl
            · rw [hB] at hbd
              exact absurd ib' (excl B hbd)
          · rintro rfl
            exact ⟨a, Or.inl rfl, rfl, ba⟩
        right
        refine ⟨a, 1, hch, ?_, Or.inl ?_⟩
        · rintro ⟨hi, -⟩
          have := inA hi
          subst this
          rw [hA] at ba
          exact excl A ba hi
        · rw [hD1, if_pos (by rfl), if_pos (iB.mpr ib')]
          have : B ∉ [along A B a] := by
            rw [List.mem_singleton]
            intro hh
            apply hne
            rw [← hh, hB]
          unfold insertKey
          rw [if_neg this, hB]
          rfl
      · -- begins inside
        have ha0 := ia ia'
        subst ha0
        rw [hA] at ia'
        have hD1 : D = [along A B b] := by
          refine lists D _ hnd fun q => ?_
          rw [hmem]
          constructor
          · rintro ⟨t, ht, rfl, hbd⟩
            rcases ht with rfl | rfl
            · rw [hA] at hbd
              exact absurd ia' (excl A hbd)
            · rfl
          · rintro rfl
            exact ⟨b, Or.inr rfl, rfl, bb⟩
        have nB : ¬ T.Inner B := by
          intro hi
          have := inB hi
          subst this
          rw [hB] at bb
          exact excl B bb hi
        right
        refine ⟨0, b, hch, fun hh => nB hh.2, Or.inr ?_⟩
        rw [hD1, if_pos (by rfl), if_neg (by rw [iB]; exact nB), if_pos (iA.mpr ia')]
        have : A ∉ [along A B b] := by
          rw [List.mem_singleton]
          intro hh
          apply hne
          rw [← hh, hA]
        unfold insertKey
        rw [if_neg this, hA]
        rfl
      · -- all inside
        have ha0 := ia ia'
        have hb1 := ib ib'
        subst ha0 hb1
        rw [hA] at ia'
        rw [hB] at ib'
        have hnil : D = [] := by
          rw [List.eq_nil_iff_forall_not_mem]
          intro q hq
          obtain ⟨t, ht, rfl, hbd⟩ := (hmem q).mp hq
          rcases ht with rfl | rfl
          · rw [hA] at hbd
            exact excl A hbd ia'
          · rw [hB] at hbd
            exact excl B hbd ib'
        left
        subst hnil
        exact ⟨rfl, Or.inr ⟨ia', ib'⟩⟩

end Verif.Cross
