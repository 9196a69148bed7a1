import Verif.Quad.PropsCell
import Verif.Polygon.PropsTri

/-! # C27: the tree of triangles -/

namespace Verif.Quad

set_option linter.unusedSectionVars false

open Verif.Polygon

variable {K : Type*} [Field K] [LinearOrder K] [IsStrictOrderedRing K]

/-! ## Vocabulary -/

/-- `p` is inside the triangle or on a side of it. -/
def Covers (t : Tri K) (p : Pt K) : Prop :=
  InTri p t.a t.b t.c ∨ OnSeg p t.a t.b ∨ OnSeg p t.b t.c ∨ OnSeg p t.c t.a

/-- `p` is inside the triangle or, for some side, at a distance of at most `1e-12` times its length from that side. -/
def Almost (t : Tri K) (p : Pt K) : Prop :=
  InTri p t.a t.b t.c ∨ ∃ a b, Side [t.a, t.b, t.c] a b ∧ ∃ q, OnSeg q a b ∧
    (p.x - q.x) * (p.x - q.x) + (p.y - q.y) * (p.y - q.y) ≤
      (1 / 10 ^ 12) ^ 2 * ((b.x - a.x) * (b.x - a.x) + (b.y - a.y) * (b.y - a.y))

/-- The three corners do not all coincide. -/
def NotPoint (t : Tri K) : Prop := ¬ (t.a = t.b ∧ t.b = t.c)

/-- All corners in the closed box. -/
def TriIn (t : Tri K) (b : Box K) : Prop := InBox t.a b ∧ InBox t.b b ∧ InBox t.c b

/-! ## The test of one triangle -/

theorem onLine_of_onSeg {rtol atol : K} (hr : 0 ≤ rtol) (ha : 0 ≤ atol) {p a b : Pt K} (h : OnSeg p a b) :
    onLine rtol atol p a b = true := by
  obtain ⟨t, t0, t1, hx, hy⟩ := h
  have e1 : p.x - a.x = t * (b.x - a.x) := by rw [hx]; ring
  have e2 : p.y - a.y = t * (b.y - a.y) := by rw [hy]; ring
  have hz : (p.y - a.y) * (b.x - a.x) + -(p.x - a.x) * (b.y - a.y) = 0 := by rw [e1, e2]; ring
  have hd : 0 ≤ (b.x - a.x) * (b.x - a.x) + (b.y - a.y) * (b.y - a.y) := add_nonneg (mul_self_nonneg _) (mul_self_nonneg _)
  unfold onLine
  simp only [hz, abs_zero, zero_div, Bool.and_eq_true, decide_eq_true_eq]
  refine ⟨?_, ?_, ?_⟩
  · split_ifs
    · exact decide_eq_true ha
    · exact decide_eq_true hr
  · have : (p.x - a.x) * (b.x - a.x) + (p.y - a.y) * (b.y - a.y) = t * ((b.x - a.x) * (b.x - a.x) + (b.y - a.y) * (b.y - a.y)) := by
      rw [e1, e2]; ring
    rw [this]
    exact mul_nonneg t0 hd
  · have : (p.x - a.x) * (p.x - a.x) + (p.y - a.y) * (p.y - a.y) = t * t * ((b.x - a.x) * (b.x - a.x) + (b.y - a.y) * (b.y - a.y)) := by
      rw [e1, e2]; ring
    rw [this]
    exact mul_le_of_le_one_left hd (by nlinarith)

theorem near_of_onLine {rtol atol : K} {p a b : Pt K} (h : onLine rtol atol p a b = true) :
    ∃ q, OnSeg q a b ∧ (p.x - q.x) * (p.x - q.x) + (p.y - q.y) * (p.y - q.y) ≤
      rtol ^ 2 * ((b.x - a.x) * (b.x - a.x) + (b.y - a.y) * (b.y - a.y)) := by
  unfold onLine at h
  simp only [Bool.and_eq_true, decide_eq_true_eq] at h
  obtain ⟨h1, h2, h3⟩ := h
  generalize hdx : b.x - a.x = dx at *
  generalize hdy : b.y - a.y = dy at *
  generalize hex : p.x - a.x = ex at *
  generalize hey : p.y - a.y = ey at *
  have hd : 0 ≤ dx * dx + dy * dy := add_nonneg (mul_self_nonneg _) (mul_self_nonneg _)
  rcases hd.eq_or_lt with h0 | h0
  · rw [← h0] at h3
    have ax : ex = 0 := by nlinarith [mul_self_nonneg ex, mul_self_nonneg ey]
    have ay : ey = 0 := by nlinarith [mul_self_nonneg ex, mul_self_nonneg ey]
    refine ⟨a, ⟨0, le_refl _, zero_le_one, by ring, by ring⟩, ?_⟩
    rw [hex, hey, ax, ay, ← h0]
    simp
  · rw [if_neg h0.ne', decide_eq_true_eq, div_le_iff₀ h0] at h1
    have cs : (ex * dx + ey * dy) ^ 2 ≤ (dx * dx + dy * dy) ^ 2 := by
      have e : (ex * ex + ey * ey) * (dx * dx + dy * dy) = (ex * dx + ey * dy) ^ 2 + (ey * dx + -ex * dy) ^ 2 := by ring
      have := mul_le_mul_of_nonneg_right h3 hd
      nlinarith [sq_nonneg (ey * dx + -ex * dy)]
    have hle : ex * dx + ey * dy ≤ dx * dx + dy * dy := by
      by_contra hc
      push Not at hc
      have := mul_lt_mul'' hc hc hd hd
      nlinarith
    refine ⟨⟨a.x + (ex * dx + ey * dy) / (dx * dx + dy * dy) * dx, a.y + (ex * dx + ey * dy) / (dx * dx + dy * dy) * dy⟩,
      ⟨(ex * dx + ey * dy) / (dx * dx + dy * dy), div_nonneg h2 hd, (div_le_one h0).2 hle, by rw [hdx], by rw [hdy]⟩, ?_⟩
    simp only
    set s := (ex * dx + ey * dy) / (dx * dx + dy * dy) with hs
    have hs' : s * (dx * dx + dy * dy) = ex * dx + ey * dy := div_mul_cancel₀ _ h0.ne'
    have e1 : p.x - (a.x + s * dx) = ex - s * dx := by rw [← hex]; ring
    have e2 : p.y - (a.y + s * dy) = ey - s * dy := by rw [← hey]; ring
    rw [e1, e2]
    have key : ((ex - s * dx) * (ex - s * dx) + (ey - s * dy) * (ey - s * dy)) * (dx * dx + dy * dy) = (ey * dx + -ex * dy) ^ 2 := by
      have : ((ex - s * dx) * (ex - s * dx) + (ey - s * dy) * (ey - s * dy)) * (dx * dx + dy * dy) =
          (ex * ex + ey * ey) * (dx * dx + dy * dy) - 2 * (s * (dx * dx + dy * dy)) * (ex * dx + ey * dy) +
            (s * (dx * dx + dy * dy)) * (s * (dx * dx + dy * dy)) := by ring
      rw [this, hs']
      ring
    have sqle : (ey * dx + -ex * dy) ^ 2 ≤ (rtol * (dx * dx + dy * dy)) ^ 2 := by
      rw [← sq_abs (ey * dx + -ex * dy)]
      exact pow_le_pow_left₀ (abs_nonneg _) h1 2
    rw [← key] at sqle
    refine le_of_mul_le_mul_right (sqle.trans (le_of_eq ?_)) h0
    ring

theorem test_of_covers {t : Tri K} {p : Pt K} (h : Covers t p) : t.test p = true := by
  have key := bary_iff p t.a t.b t.c _ _ _ rfl rfl rfl
  have hr : (0 : K) ≤ 1 / 10 ^ 12 := by positivity
  have hc : InClosedTri p t.a t.b t.c := by
    rcases h with h | h | h | h
    · exact inTri_closed h
    · exact onSeg_closed h
    · exact closed_cycle (onSeg_closed h)
    · exact closed_cycle (closed_cycle (onSeg_closed h))
  obtain ⟨h1, h2, h3, h4⟩ := tri_quick hc
  unfold Tri.test insideTri
  simp only
  rw [if_neg h1, if_neg h2, if_neg h3, if_neg h4]
  split_ifs with h5
  · rfl
  · rcases h with h | h | h | h
    · exact absurd (key.mpr h) h5
    · rw [onLine_of_onSeg hr hr h]; simp
    · rw [onLine_of_onSeg hr hr h]; simp
    · rw [onLine_of_onSeg hr hr h]; simp

theorem almost_of_test {t : Tri K} {p : Pt K} (h : t.test p = true) : Almost t p := by
  have key := bary_iff p t.a t.b t.c _ _ _ rfl rfl rfl
  unfold Tri.test insideTri at h
  simp only at h
  split_ifs at h with h1 h2 h3 h4 h5
  · exact Or.inl (key.mp h5)
  · right
    simp only [Bool.or_eq_true] at h
    rcases h with h | h | h
    · exact ⟨t.a, t.b, ⟨0, by simp, rfl, rfl⟩, near_of_onLine h⟩
    · exact ⟨t.b, t.c, ⟨1, by simp, rfl, rfl⟩, near_of_onLine h⟩
    · exact ⟨t.c, t.a, ⟨2, by simp, rfl, by simp⟩, near_of_onLine h⟩

/-! ## Contents of the tree -/

/-- All triangles stored in the tree. -/
def Tree.all : Tree K → List (Tri K)
  | .tip _ ls _ => ls
  | .fork _ ls _ q1 q2 q3 q4 => ls ++ (q1.all ++ (q2.all ++ (q3.all ++ q4.all)))

/-- Extents of the root. -/
def Tree.box : Tree K → Box K
  | .tip b _ _ => b
  | .fork b _ _ _ _ _ _ => b

/-- Everything below a child belongs to its quadrant, and children have the extents of their quadrant. -/
def Good : Tree K → Prop
  | .tip _ _ _ => True
  | .fork b _ _ q1 q2 q3 q4 =>
    (Good q1 ∧ q1.box = childBox b 1 ∧ ∀ t ∈ q1.all, quadOfTri b t = 1) ∧
    (Good q2 ∧ q2.box = childBox b 2 ∧ ∀ t ∈ q2.all, quadOfTri b t = 2) ∧
    (Good q3 ∧ q3.box = childBox b 3 ∧ ∀ t ∈ q3.all, quadOfTri b t = 3) ∧
    (Good q4 ∧ q4.box = childBox b 4 ∧ ∀ t ∈ q4.all, quadOfTri b t = 4)

theorem quadOf_le (b : Box K) (p : Pt K) :
    quadOf b p = 0 ∨ quadOf b p = 1 ∨ quadOf b p = 2 ∨ quadOf b p = 3 ∨ quadOf b p = 4 := by
  unfold quadOf
  simp only
  split_ifs <;> simp

theorem quadOfTri_le (b : Box K) (t : Tri K) :
    quadOfTri b t = 0 ∨ quadOfTri b t = 1 ∨ quadOfTri b t = 2 ∨ quadOfTri b t = 3 ∨ quadOfTri b t = 4 := by
  unfold quadOfTri
  simp only
  split_ifs
  · exact quadOf_le b t.a
  · exact Or.inl rfl

theorem quadOfTri_pos {b : Box K} {t : Tri K} {q : ℕ} (hq : q ≠ 0) (h : quadOfTri b t = q) :
    quadOf b t.a = q ∧ quadOf b t.b = q ∧ quadOf b t.c = q := by
  unfold quadOfTri at h
  simp only at h
  split_ifs at h with h1
  · exact ⟨h, h1.1 ▸ h, h1.2 ▸ h1.1 ▸ h⟩
  · exact absurd h.symm hq

/-- Insertion into one child, whichever it is. -/
theorem good_new (b : Box K) : Good (Tree.new b) ∧ (Tree.new b).all = [] ∧ (Tree.new b).box = b ∧ (Tree.new b).items = 0 :=
  ⟨trivial, rfl, rfl, rfl⟩

theorem insertTri_spec (f : ℕ) (T T' : Tree K) (t : Tri K) (h : insertTri f T t = some T') :
    T'.all.Perm (T.all ++ [t]) ∧ T'.items = T.items + 1 ∧ T'.box = T.box ∧ (Good T → Good T') := by
  induction f generalizing T T' with
  | zero => cases h
  | succ f ih =>
    -- one child of a good tree receives the triangle
    have child : ∀ (b : Box K) (q : Tree K) (q' : Tree K) (i : ℕ), quadOfTri b t = i → insertTri f q t = some q' →
        Good q ∧ q.box = childBox b i ∧ (∀ s ∈ q.all, quadOfTri b s = i) →
        Good q' ∧ q'.box = childBox b i ∧ (∀ s ∈ q'.all, quadOfTri b s = i) := by
      intro b q q' i hi hq ⟨g1, g2, g3⟩
      obtain ⟨k1, -, k3, k4⟩ := ih q q' hq
      refine ⟨k4 g1, by rw [k3, g2], fun s hs => ?_⟩
      rcases List.mem_append.1 (k1.mem_iff.1 hs) with h | h
      · exact g3 s h
      · rw [List.mem_singleton.1 h]
        exact hi
    have fresh : ∀ (b : Box K) (i : ℕ), Good (Tree.new (childBox b i)) ∧ (Tree.new (childBox b i)).box = childBox b i ∧
        (∀ s ∈ (Tree.new (childBox b i)).all, quadOfTri b s = i) :=
      fun b i => ⟨trivial, rfl, fun s hs => by simp [Tree.new, Tree.all] at hs⟩
    cases T with
    | tip b ls n =>
      simp only [insertTri] at h
      rcases quadOfTri_le b t with hq | hq | hq | hq | hq <;> rw [hq] at h <;>
        simp only [Option.map_eq_some_iff, Option.some.injEq] at h
      · subst h
        exact ⟨List.Perm.refl _, rfl, rfl, fun _ => trivial⟩
      all_goals
        obtain ⟨q, hq', rfl⟩ := h
        have k := ih _ _ hq'
        refine ⟨?_, rfl, rfl, fun _ => ?_⟩
        · simp only [Tree.all, Tree.new, List.nil_append, List.append_nil]
          exact (List.Perm.refl ls).append (by simpa [Tree.new, Tree.all] using k.1)
      · exact ⟨child b _ _ 1 hq hq' (fresh b 1), fresh b 2, fresh b 3, fresh b 4⟩
      · exact ⟨fresh b 1, child b _ _ 2 hq hq' (fresh b 2), fresh b 3, fresh b 4⟩
      · exact ⟨fresh b 1, fresh b 2, child b _ _ 3 hq hq' (fresh b 3), fresh b 4⟩
      · exact ⟨fresh b 1, fresh b 2, fresh b 3, child b _ _ 4 hq hq' (fresh b 4)⟩
    | fork b ls n q1 q2 q3 q4 =>
      simp only [insertTri] at h
      rcases quadOfTri_le b t with hq | hq | hq | hq | hq <;> rw [hq] at h <;>
        simp only [Option.map_eq_some_iff, Option.some.injEq] at h
      · subst h
        refine ⟨?_, rfl, rfl, fun h => h⟩
        simp only [Tree.all, List.append_assoc]
        refine (List.Perm.refl ls).append ?_
        refine List.perm_append_comm.trans ?_
        simp only [List.append_assoc]
        exact List.Perm.refl _
      all_goals
        obtain ⟨q, hq', rfl⟩ := h
        have k := ih _ _ hq'
        refine ⟨?_, rfl, rfl, fun hg => ?_⟩
      · simp only [Tree.all, List.append_assoc]
        refine (List.Perm.refl ls).append ((k.1.append_right _).trans ?_)
        rw [List.append_assoc]
        refine (List.Perm.refl _).append (List.perm_append_comm.trans ?_)
        simp only [List.append_assoc]
        exact List.Perm.refl _
      · exact ⟨child b _ _ 1 hq hq' hg.1, hg.2.1, hg.2.2.1, hg.2.2.2⟩
      · simp only [Tree.all, List.append_assoc]
        refine (List.Perm.refl ls).append ((List.Perm.refl _).append ((k.1.append_right _).trans ?_))
        rw [List.append_assoc]
        refine (List.Perm.refl _).append (List.perm_append_comm.trans ?_)
        simp only [List.append_assoc]
        exact List.Perm.refl _
      · exact ⟨hg.1, child b _ _ 2 hq hq' hg.2.1, hg.2.2.1, hg.2.2.2⟩
      · simp only [Tree.all, List.append_assoc]
        refine (List.Perm.refl ls).append ((List.Perm.refl _).append ((List.Perm.refl _).append ((k.1.append_right _).trans ?_)))
        rw [List.append_assoc]
        exact (List.Perm.refl _).append List.perm_append_comm
      · exact ⟨hg.1, hg.2.1, child b _ _ 3 hq hq' hg.2.2.1, hg.2.2.2⟩
      · simp only [Tree.all, List.append_assoc]
        exact (List.Perm.refl ls).append ((List.Perm.refl _).append ((List.Perm.refl _).append ((List.Perm.refl _).append k.1)))
      · exact ⟨hg.1, hg.2.1, hg.2.2.1, child b _ _ 4 hq hq' hg.2.2.2⟩

theorem buildTree_spec (f : ℕ) (ts : List (Tri K)) (T T' : Tree K) (h : buildTree f T ts = some T') :
    T'.all.Perm (T.all ++ ts) ∧ T'.items = T.items + ts.length ∧ T'.box = T.box ∧ (Good T → Good T') := by
  induction ts generalizing T with
  | nil =>
    cases h
    simp
  | cons t rest ih =>
    simp only [buildTree] at h
    cases hi : insertTri f T t with
    | none => rw [hi] at h; cases h
    | some T1 =>
      rw [hi] at h
      obtain ⟨k1, k2, k3, k4⟩ := insertTri_spec f T T1 t hi
      obtain ⟨j1, j2, j3, j4⟩ := ih T1 h
      refine ⟨j1.trans ?_, by rw [j2, k2, List.length_cons]; omega, by rw [j3, k3], fun hg => j4 (k4 hg)⟩
      refine (k1.append_right rest).trans ?_
      simp

/-! ## Searching -/

theorem search_sound (T : Tree K) (p : Pt K) (t : Tri K) (h : T.search p = some t) : t ∈ T.all ∧ t.test p = true := by
  induction T with
  | tip b ls n =>
    simp only [Tree.search] at h
    exact ⟨List.mem_of_find?_eq_some h, by simpa using List.find?_some h⟩
  | fork b ls n q1 q2 q3 q4 ih1 ih2 ih3 ih4 =>
    simp only [Tree.search] at h
    cases hf : ls.find? fun t => t.test p with
    | some s =>
      rw [hf] at h
      cases h
      exact ⟨by simp [Tree.all, List.mem_of_find?_eq_some hf], by simpa using List.find?_some hf⟩
    | none =>
      rw [hf] at h
      rcases quadOf_le b p with hq | hq | hq | hq | hq <;> rw [hq] at h <;> simp only at h
      · cases h
      · exact ⟨by simp [Tree.all, (ih1 h).1], (ih1 h).2⟩
      · exact ⟨by simp [Tree.all, (ih2 h).1], (ih2 h).2⟩
      · exact ⟨by simp [Tree.all, (ih3 h).1], (ih3 h).2⟩
      · exact ⟨by simp [Tree.all, (ih4 h).1], (ih4 h).2⟩

theorem covers_closed {t : Tri K} {p : Pt K} (h : Covers t p) : InClosedTri p t.a t.b t.c := by
  rcases h with h | h | h | h
  · exact inTri_closed h
  · exact onSeg_closed h
  · exact closed_cycle (onSeg_closed h)
  · exact closed_cycle (closed_cycle (onSeg_closed h))

/-- Quadrants in words. -/
theorem quadOf_eq (b : Box K) (p : Pt K) :
    (quadOf b p = 1 ↔ (b.xmin + b.xmax) / 2 < p.x ∧ (b.ymin + b.ymax) / 2 < p.y) ∧
    (quadOf b p = 2 ↔ p.x < (b.xmin + b.xmax) / 2 ∧ (b.ymin + b.ymax) / 2 < p.y) ∧
    (quadOf b p = 3 ↔ p.x < (b.xmin + b.xmax) / 2 ∧ p.y < (b.ymin + b.ymax) / 2) ∧
    (quadOf b p = 4 ↔ (b.xmin + b.xmax) / 2 < p.x ∧ p.y < (b.ymin + b.ymax) / 2) := by
  unfold quadOf
  simp only [gt_iff_lt]
  rcases lt_trichotomy ((b.xmin + b.xmax) / 2) p.x with h | h | h <;>
    rcases lt_trichotomy ((b.ymin + b.ymax) / 2) p.y with h' | h' | h' <;>
    simp [h, h', not_lt.2 h.le, not_lt.2 h'.le]

/-- A point of a triangle lies in the quadrant that contains the corners. -/
theorem quad_convex {b : Box K} {t : Tri K} {p : Pt K} (h : InClosedTri p t.a t.b t.c) {q : ℕ} (hq : q ≠ 0)
    (ht : quadOfTri b t = q) : quadOf b p = q := by
  obtain ⟨h1, h2, h3⟩ := quadOfTri_pos hq ht
  obtain ⟨u, v, w, hu, hv, hw, hs, hx, hy⟩ := h
  have gtx : ∀ m, m < t.a.x → m < t.b.x → m < t.c.x → m < p.x := by
    intro m a b c
    by_contra hc
    push Not at hc
    exact combo_lt hu hv hw hs hx ⟨by linarith, by linarith, by linarith⟩
  have ltx : ∀ m, t.a.x < m → t.b.x < m → t.c.x < m → p.x < m := by
    intro m a b c
    by_contra hc
    push Not at hc
    exact combo_gt hu hv hw hs hx ⟨by linarith, by linarith, by linarith⟩
  have gty : ∀ m, m < t.a.y → m < t.b.y → m < t.c.y → m < p.y := by
    intro m a b c
    by_contra hc
    push Not at hc
    exact combo_lt hu hv hw hs hy ⟨by linarith, by linarith, by linarith⟩
  have lty : ∀ m, t.a.y < m → t.b.y < m → t.c.y < m → p.y < m := by
    intro m a b c
    by_contra hc
    push Not at hc
    exact combo_gt hu hv hw hs hy ⟨by linarith, by linarith, by linarith⟩
  rcases quadOfTri_le b t with h0 | h0 | h0 | h0 | h0 <;> rw [ht] at h0 <;> subst h0
  · exact absurd rfl hq
  · rw [(quadOf_eq b _).1] at h1 h2 h3 ⊢
    exact ⟨gtx _ h1.1 h2.1 h3.1, gty _ h1.2 h2.2 h3.2⟩
  · rw [(quadOf_eq b _).2.1] at h1 h2 h3 ⊢
    exact ⟨ltx _ h1.1 h2.1 h3.1, gty _ h1.2 h2.2 h3.2⟩
  · rw [(quadOf_eq b _).2.2.1] at h1 h2 h3 ⊢
    exact ⟨ltx _ h1.1 h2.1 h3.1, lty _ h1.2 h2.2 h3.2⟩
  · rw [(quadOf_eq b _).2.2.2] at h1 h2 h3 ⊢
    exact ⟨gtx _ h1.1 h2.1 h3.1, lty _ h1.2 h2.2 h3.2⟩

theorem find_some {ls : List (Tri K)} {p : Pt K} {t : Tri K} (ht : t ∈ ls) (h : Covers t p) :
    ∃ s, (ls.find? fun t => t.test p) = some s := by
  rw [← Option.isSome_iff_exists, List.find?_isSome]
  exact ⟨t, ht, by simpa using test_of_covers h⟩

theorem search_complete (T : Tree K) (hg : Good T) (p : Pt K) (t : Tri K) (ht : t ∈ T.all) (h : Covers t p) :
    ∃ s, T.search p = some s := by
  induction T with
  | tip b ls n => exact find_some ht h
  | fork b ls n q1 q2 q3 q4 ih1 ih2 ih3 ih4 =>
    obtain ⟨⟨g1, -, a1⟩, ⟨g2, -, a2⟩, ⟨g3, -, a3⟩, ⟨g4, -, a4⟩⟩ := hg
    simp only [Tree.search]
    cases hf : ls.find? fun t => t.test p with
    | some s => exact ⟨s, rfl⟩
    | none =>
      simp only [Tree.all, List.mem_append] at ht
      have hc := covers_closed h
      rcases ht with ht | ht | ht | ht | ht
      · obtain ⟨s, hs⟩ := find_some ht h
        rw [hs] at hf
        cases hf
      · simp only [quad_convex hc (by decide) (a1 t ht)]
        exact ih1 g1 ht
      · simp only [quad_convex hc (by decide) (a2 t ht)]
        exact ih2 g2 ht
      · simp only [quad_convex hc (by decide) (a3 t ht)]
        exact ih3 g3 ht
      · simp only [quad_convex hc (by decide) (a4 t ht)]
        exact ih4 g4 ht

/-- **C27.** The tree holds each inserted triangle once; `items_in_tree` is their number. -/
theorem C27_items (fuel : ℕ) (root : Box K) (ts : List (Tri K)) (T : Tree K) (h : buildTree fuel (.new root) ts = some T) :
    T.items = ts.length ∧ T.all.Perm ts := by
  obtain ⟨h1, h2, -, -⟩ := buildTree_spec fuel ts _ _ h
  exact ⟨by rw [h2]; simp [Tree.new, Tree.items], by simpa [Tree.new, Tree.all] using h1⟩

/-- **C27.** A triangle reported for a point is one of the inserted triangles and contains the point, up to `1e-12` of the length
of a side. -/
theorem C27_found_contains (fuel : ℕ) (root : Box K) (ts : List (Tri K)) (T : Tree K) (h : buildTree fuel (.new root) ts = some T)
    (p : Pt K) (t : Tri K) (hs : T.search p = some t) : t ∈ ts ∧ Almost t p := by
  obtain ⟨h1, h2⟩ := search_sound T p t hs
  exact ⟨(C27_items fuel root ts T h).2.mem_iff.1 h1, almost_of_test h2⟩

/-- **C27.** For every point inside or on the boundary of an inserted triangle a triangle is reported, wherever the triangle lies
relative to the root and in whatever order the triangles were inserted. -/
theorem C27_complete (fuel : ℕ) (root : Box K) (ts : List (Tri K)) (T : Tree K) (h : buildTree fuel (.new root) ts = some T)
    (p : Pt K) (t : Tri K) (ht : t ∈ ts) (hc : Covers t p) : ∃ s, T.search p = some s :=
  search_complete T ((buildTree_spec fuel ts _ _ h).2.2.2 trivial) p t ((C27_items fuel root ts T h).2.mem_iff.2 ht) hc

/-- **C27.** If the point lies in one triangle and is away from all others, that triangle is reported. -/
theorem C27_exact (fuel : ℕ) (root : Box K) (ts : List (Tri K)) (T : Tree K) (h : buildTree fuel (.new root) ts = some T)
    (p : Pt K) (t : Tri K) (ht : t ∈ ts) (hc : Covers t p) (ho : ∀ s ∈ ts, s ≠ t → ¬ Almost s p) : T.search p = some t := by
  obtain ⟨s, hs⟩ := C27_complete fuel root ts T h p t ht hc
  obtain ⟨h1, h2⟩ := C27_found_contains fuel root ts T h p s hs
  by_cases he : s = t
  · rw [← he]; exact hs
  · exact absurd h2 (ho s h1 he)

/-! ## Termination -/

theorem childBox_size (b : Box K) (q : ℕ) :
    (childBox b q).xmax - (childBox b q).xmin = (b.xmax - b.xmin) * border ∧
      (childBox b q).ymax - (childBox b q).ymin = (b.ymax - b.ymin) * border := by
  unfold childBox
  simp only
  split <;> constructor <;> ring

/-- A corner in quadrant `q` of a box around it lies in the extents of child `q`. -/
theorem inBox_child {b : Box K} {p : Pt K} (h : InBox p b) {q : ℕ} (hq : q ≠ 0) (hp : quadOf b p = q) : InBox p (childBox b q) := by
  obtain ⟨h1, h2, h3, h4⟩ := h
  have e1 : (b.xmin + b.xmax) / 2 ≤ b.xmin + (b.xmax - b.xmin) * border := by unfold border; linarith
  have e2 : b.xmax - (b.xmax - b.xmin) * border ≤ (b.xmin + b.xmax) / 2 := by unfold border; linarith
  have e3 : (b.ymin + b.ymax) / 2 ≤ b.ymin + (b.ymax - b.ymin) * border := by unfold border; linarith
  have e4 : b.ymax - (b.ymax - b.ymin) * border ≤ (b.ymin + b.ymax) / 2 := by unfold border; linarith
  rcases quadOf_le b p with h0 | h0 | h0 | h0 | h0 <;> rw [hp] at h0 <;> subst h0
  · exact absurd rfl hq
  · rw [(quadOf_eq b _).1] at hp
    exact ⟨by simp only [childBox]; linarith [hp.1], h2, by simp only [childBox]; linarith [hp.2], h4⟩
  · rw [(quadOf_eq b _).2.1] at hp
    exact ⟨h1, by simp only [childBox]; linarith [hp.1], by simp only [childBox]; linarith [hp.2], h4⟩
  · rw [(quadOf_eq b _).2.2.1] at hp
    exact ⟨h1, by simp only [childBox]; linarith [hp.1], h3, by simp only [childBox]; linarith [hp.2]⟩
  · rw [(quadOf_eq b _).2.2.2] at hp
    exact ⟨by simp only [childBox]; linarith [hp.1], h2, h3, by simp only [childBox]; linarith [hp.2]⟩

theorem triIn_child {b : Box K} {t : Tri K} (h : TriIn t b) {q : ℕ} (hq : q ≠ 0) (ht : quadOfTri b t = q) :
    TriIn t (childBox b q) := by
  obtain ⟨h1, h2, h3⟩ := quadOfTri_pos hq ht
  exact ⟨inBox_child h.1 hq h1, inBox_child h.2.1 hq h2, inBox_child h.2.2 hq h3⟩

/-- A triangle that is more than a point is wider or higher than any small enough box. -/
theorem notPoint_size {t : Tri K} (h : NotPoint t) : ∃ e, 0 < e ∧ ∀ b : Box K, TriIn t b → e ≤ b.xmax - b.xmin ∨ e ≤ b.ymax - b.ymin := by
  have one : ∀ p q : Pt K, p ≠ q → ∃ e, 0 < e ∧ ∀ b : Box K, InBox p b → InBox q b → e ≤ b.xmax - b.xmin ∨ e ≤ b.ymax - b.ymin := by
    intro p q hpq
    by_cases hx : p.x = q.x
    · have hy : p.y ≠ q.y := fun hy => hpq (by cases p; cases q; simp_all)
      refine ⟨|p.y - q.y|, abs_pos.2 (sub_ne_zero.2 hy), fun b h1 h2 => Or.inr ?_⟩
      rw [abs_le]
      exact ⟨by linarith [h1.2.2.1, h2.2.2.2], by linarith [h1.2.2.2, h2.2.2.1]⟩
    · refine ⟨|p.x - q.x|, abs_pos.2 (sub_ne_zero.2 hx), fun b h1 h2 => Or.inl ?_⟩
      rw [abs_le]
      exact ⟨by linarith [h1.1, h2.2.1], by linarith [h1.2.1, h2.1]⟩
  unfold NotPoint at h
  by_cases h1 : t.a = t.b
  · obtain ⟨e, he, hb⟩ := one t.b t.c fun h2 => h ⟨h1, h2⟩
    exact ⟨e, he, fun b ht => hb b ht.2.1 ht.2.2⟩
  · obtain ⟨e, he, hb⟩ := one t.a t.b h1
    exact ⟨e, he, fun b ht => hb b ht.1 ht.2.1⟩

theorem insertTri_ends (t : Tri K) (e : K) (he : ∀ b : Box K, TriIn t b → e ≤ b.xmax - b.xmin ∨ e ≤ b.ymax - b.ymin) (n : ℕ) :
    ∀ (T : Tree K), Good T → TriIn t T.box → (T.box.xmax - T.box.xmin) * border ^ n < e → (T.box.ymax - T.box.ymin) * border ^ n < e →
      ∀ f, n + 1 ≤ f → ∃ T', insertTri f T t = some T' := by
  induction n with
  | zero =>
    intro T _ ht hw hh
    rw [pow_zero, mul_one] at hw hh
    rcases he _ ht with h | h
    · exact absurd hw (not_lt.2 h)
    · exact absurd hh (not_lt.2 h)
  | succ n ih =>
    intro T hg ht hw hh f hf
    obtain ⟨f, rfl⟩ : ∃ g, f = g + 1 := ⟨f - 1, by omega⟩
    -- the triangle goes to child `q` with extents `childBox`
    have sub : ∀ (q : Tree K) (i : ℕ), i ≠ 0 → quadOfTri T.box t = i → Good q → q.box = childBox T.box i →
        ∃ q', insertTri f q t = some q' := by
      intro q i hi hqi hgq hqb
      apply ih q hgq (by rw [hqb]; exact triIn_child ht hi hqi) _ _ f (by omega)
      · rw [hqb, (childBox_size _ _).1, mul_assoc, ← pow_succ']
        exact hw
      · rw [hqb, (childBox_size _ _).2, mul_assoc, ← pow_succ']
        exact hh
    cases T with
    | tip b ls n =>
      simp only [Tree.box] at sub
      simp only [insertTri]
      rcases quadOfTri_le b t with hq | hq | hq | hq | hq <;> simp only [hq]
      · exact ⟨_, rfl⟩
      all_goals
        obtain ⟨q', hq'⟩ := sub (.new (childBox b _)) _ (by decide) hq trivial rfl
        rw [hq']
        exact ⟨_, rfl⟩
    | fork b ls n q1 q2 q3 q4 =>
      simp only [Tree.box] at sub
      obtain ⟨⟨g1, b1, -⟩, ⟨g2, b2, -⟩, ⟨g3, b3, -⟩, ⟨g4, b4, -⟩⟩ := hg
      simp only [insertTri]
      rcases quadOfTri_le b t with hq | hq | hq | hq | hq <;> simp only [hq]
      · exact ⟨_, rfl⟩
      · obtain ⟨q', hq'⟩ := sub q1 1 (by decide) hq g1 b1
        rw [hq']
        exact ⟨_, rfl⟩
      · obtain ⟨q', hq'⟩ := sub q2 2 (by decide) hq g2 b2
        rw [hq']
        exact ⟨_, rfl⟩
      · obtain ⟨q', hq'⟩ := sub q3 3 (by decide) hq g3 b3
        rw [hq']
        exact ⟨_, rfl⟩
      · obtain ⟨q', hq'⟩ := sub q4 4 (by decide) hq g4 b4
        rw [hq']
        exact ⟨_, rfl⟩

/-- **C27.** Building the tree ends if the root's extents contain the triangles and no triangle is a single point. -/
theorem C27_terminates [Archimedean K] (root : Box K) (ts : List (Tri K)) (hin : ∀ t ∈ ts, TriIn t root)
    (hnp : ∀ t ∈ ts, NotPoint t) : ∃ N, ∀ fuel, N ≤ fuel → ∃ T, buildTree fuel (.new root) ts = some T := by
  have one : ∀ t : Tri K, TriIn t root → NotPoint t → ∃ N, ∀ fuel, N ≤ fuel → ∀ T : Tree K, Good T → T.box = root →
      ∃ T', insertTri fuel T t = some T' := by
    intro t ht hn
    obtain ⟨e, he, hb⟩ := notPoint_size hn
    have hw : 0 ≤ root.xmax - root.xmin := by linarith [ht.1.1, ht.1.2.1]
    have hh : 0 ≤ root.ymax - root.ymin := by linarith [ht.1.2.2.1, ht.1.2.2.2]
    obtain ⟨n1, h1⟩ := border_pow_small (root.xmax - root.xmin + (root.ymax - root.ymin)) e (add_nonneg hw hh) he
    have hbp : (0 : K) ≤ border ^ n1 := pow_nonneg (by unfold border; norm_num) _
    refine ⟨n1 + 1, fun fuel hf T hg hT => ?_⟩
    apply insertTri_ends t e hb n1 T hg (by rw [hT]; exact ht) _ _ fuel hf
    · rw [hT]
      have := mul_nonneg hh hbp
      linarith
    · rw [hT]
      have := mul_nonneg hw hbp
      linarith
  have all : ∀ ts : List (Tri K), (∀ t ∈ ts, TriIn t root) → (∀ t ∈ ts, NotPoint t) →
      ∃ N, ∀ fuel, N ≤ fuel → ∀ T : Tree K, Good T → T.box = root → ∃ T', buildTree fuel T ts = some T' := by
    intro ts
    induction ts with
    | nil => exact fun _ _ => ⟨0, fun fuel _ T _ _ => ⟨T, rfl⟩⟩
    | cons t rest ih =>
      intro h1 h2
      obtain ⟨N1, k1⟩ := one t (h1 t (by simp)) (h2 t (by simp))
      obtain ⟨N2, k2⟩ := ih (fun t ht => h1 t (by simp [ht])) fun t ht => h2 t (by simp [ht])
      refine ⟨max N1 N2, fun fuel hf T hg hT => ?_⟩
      obtain ⟨T1, hT1⟩ := k1 fuel (le_trans (le_max_left _ _) hf) T hg hT
      obtain ⟨-, -, j3, j4⟩ := insertTri_spec fuel T T1 t hT1
      obtain ⟨T2, hT2⟩ := k2 fuel (le_trans (le_max_right _ _) hf) T1 (j4 hg) (by rw [j3, hT])
      exact ⟨T2, by simp only [buildTree, hT1, hT2]⟩
  obtain ⟨N, hN⟩ := all ts hin hnp
  exact ⟨N, fun fuel hf => hN fuel hf _ trivial rfl⟩

/-- **C27.** A triangle wholly beyond the upper right corner of the root is never placed: whatever stack is available is
exhausted. -/
theorem C27_outside_fails (root : Box K) (hr : Proper root) (t : Tri K)
    (ht : ∀ p ∈ [t.a, t.b, t.c], root.xmax < p.x ∧ root.ymax < p.y) : ∀ fuel, insertTri fuel (.new root) t = none := by
  intro fuel
  induction fuel generalizing root with
  | zero => rfl
  | succ f ih =>
    have h1 : ∀ p ∈ [t.a, t.b, t.c], quadOf root p = 1 := by
      intro p hp
      obtain ⟨h2, h3⟩ := ht p hp
      rw [(quadOf_eq root p).1]
      unfold Proper at hr
      exact ⟨by linarith [hr.1], by linarith [hr.2]⟩
    have hq : quadOfTri root t = 1 := by
      unfold quadOfTri
      simp only
      rw [h1 t.a (by simp), h1 t.b (by simp), h1 t.c (by simp)]
      simp
    have hb : (0 : K) ≤ border := by unfold border; norm_num
    have := ih (childBox root 1)
      ⟨by simp only [childBox]; linarith [mul_nonneg (sub_nonneg.2 hr.1) hb],
       by simp only [childBox]; linarith [mul_nonneg (sub_nonneg.2 hr.2) hb]⟩ ht
    simp only [Tree.new, insertTri, hq] at this ⊢
    rw [this]
    rfl

/-- **C27.** The tree made for a mesh has extents that contain every corner, so its construction ends for every mesh without
single-point triangles, and searching it is complete and correct. -/
theorem C27_mesh [Archimedean K] (t : Tri K) (ts : List (Tri K)) (hnp : ∀ s ∈ t :: ts, NotPoint s) :
    ∃ N, ∀ fuel, N ≤ fuel → ∃ T, meshTree fuel t ts = some T ∧ T.items = (t :: ts).length ∧
      (∀ p, (∃ s ∈ t :: ts, Covers s p) → ∃ s, T.search p = some s) ∧
      (∀ p s, T.search p = some s → s ∈ t :: ts ∧ Almost s p) := by
  have hin : ∀ s ∈ t :: ts, TriIn s (meshExtents t.a ([t.b, t.c] ++ corners ts)) := by
    have hbox := (C26_bounding_box t.a ([t.b, t.c] ++ corners ts)).1
    set b := Box.ofPoints t.a ([t.b, t.c] ++ corners ts) with hb
    have hp := hbox t.a (by simp)
    have hx : 0 ≤ b.xmax - b.xmin := by linarith [hp.1, hp.2.1]
    have hy : 0 ≤ b.ymax - b.ymin := by linarith [hp.2.2.1, hp.2.2.2]
    have grown : ∀ q, InBox q b → InBox q (meshExtents t.a ([t.b, t.c] ++ corners ts)) := by
      intro q hq
      unfold meshExtents
      rw [← hb]
      unfold Box.grow InBox
      simp only
      obtain ⟨q1, q2, q3, q4⟩ := hq
      refine ⟨?_, ?_, ?_, ?_⟩ <;> nlinarith
    intro s hs
    rcases List.mem_cons.1 hs with rfl | hs
    · exact ⟨grown _ (hbox _ (by simp)), grown _ (hbox _ (by simp)), grown _ (hbox _ (by simp))⟩
    · have mem : ∀ q ∈ [s.a, s.b, s.c], q ∈ corners ts := by
        intro q hq
        unfold corners
        rw [List.mem_flatMap]
        exact ⟨s, hs, hq⟩
      refine ⟨grown _ (hbox _ ?_), grown _ (hbox _ ?_), grown _ (hbox _ ?_)⟩ <;>
        · rw [List.mem_cons, List.mem_append]
          exact Or.inr (Or.inr (mem _ (by simp)))
  obtain ⟨N, hN⟩ := C27_terminates _ (t :: ts) hin hnp
  refine ⟨N, fun fuel hf => ?_⟩
  obtain ⟨T, hT⟩ := hN fuel hf
  exact ⟨T, hT, (C27_items _ _ _ _ hT).1, fun p ⟨s, hs, hc⟩ => C27_complete _ _ _ _ hT p s hs hc,
    fun p s hs => C27_found_contains _ _ _ _ hT p s hs⟩

/-! ## Interpolation weights -/

theorem sigmaAt_eq (sq : K → K) (hs : ∀ x, 0 < x → sq x ≠ 0) (v s e p : Pt K) (h : ¬ Flat s e v) : sigmaAt sq v s e p = ori s e p / ori s e v := by
  have ho : ori s e v ≠ 0 := by
    intro h0
    apply h
    unfold ori at h0
    unfold Flat
    linarith
  have hd : 0 < -(e.y - s.y) * -(e.y - s.y) + (e.x - s.x) * (e.x - s.x) := by
    refine lt_of_le_of_ne (add_nonneg (mul_self_nonneg _) (mul_self_nonneg _)) fun h0 => ho ?_
    have a : e.x - s.x = 0 := by nlinarith [mul_self_nonneg (e.x - s.x), mul_self_nonneg (e.y - s.y)]
    have b : e.y - s.y = 0 := by nlinarith [mul_self_nonneg (e.x - s.x), mul_self_nonneg (e.y - s.y)]
    unfold ori
    rw [a, b]
    ring
  set r := sq (-(e.y - s.y) * -(e.y - s.y) + (e.x - s.x) * (e.x - s.x)) with hr
  have hr0 : r ≠ 0 := hs _ hd
  have e1 : ∀ q : Pt K, (q.x - s.x) * (-(e.y - s.y) / r) + (q.y - s.y) * ((e.x - s.x) / r) = ori s e q / r := by
    intro q
    unfold ori
    field_simp
    ring
  unfold sigmaAt normal
  simp only
  rw [← hr]
  split_ifs with hc
  · have e2 : ∀ q : Pt K, (q.x - s.x) * -(-(e.y - s.y) / r) + (q.y - s.y) * -((e.x - s.x) / r) = -(ori s e q / r) := by
      intro q
      rw [← e1 q]
      ring
    simp only [e2, neg_div_neg_eq]
    rw [div_div_div_cancel_right₀ hr0]
  · simp only [e1]
    rw [div_div_div_cancel_right₀ hr0]

/-- The weights do not depend on the normalisation of the normals. -/
theorem weights_of_ne (sq : K → K) (hs : ∀ x, 0 < x → sq x ≠ 0) (t : Tri K) (h : ¬ Flat t.a t.b t.c) (p : Pt K) :
    let w := sigma sq t p
    w.1 + w.2.1 + w.2.2 = 1 ∧ w.1 * t.a.x + w.2.1 * t.b.x + w.2.2 * t.c.x = p.x ∧
      w.1 * t.a.y + w.2.1 * t.b.y + w.2.2 * t.c.y = p.y ∧
      (InTri p t.a t.b t.c → 0 < w.1 ∧ 0 < w.2.1 ∧ 0 < w.2.2) := by
  have ho : ori t.a t.b t.c ≠ 0 := by
    intro h0
    apply h
    unfold ori at h0
    unfold Flat
    linarith
  have f1 : ori t.b t.c t.a = ori t.a t.b t.c := by unfold ori; ring
  have f2 : ori t.c t.a t.b = ori t.a t.b t.c := by unfold ori; ring
  have g1 : ¬ Flat t.b t.c t.a := fun h' => h (by unfold Flat at *; linarith)
  have g2 : ¬ Flat t.c t.a t.b := fun h' => h (by unfold Flat at *; linarith)
  simp only [sigma]
  rw [sigmaAt_eq sq hs _ _ _ _ g1, sigmaAt_eq sq hs _ _ _ _ g2, sigmaAt_eq sq hs _ _ _ _ h, f1, f2]
  refine ⟨?_, ?_, ?_, ?_⟩
  · rw [← add_div, ← add_div, div_eq_one_iff_eq ho]
    unfold ori
    ring
  · rw [div_mul_eq_mul_div, div_mul_eq_mul_div, div_mul_eq_mul_div, ← add_div, ← add_div, div_eq_iff ho]
    unfold ori
    ring
  · rw [div_mul_eq_mul_div, div_mul_eq_mul_div, div_mul_eq_mul_div, ← add_div, ← add_div, div_eq_iff ho]
    unfold ori
    ring
  · rintro ⟨-, u, v, w, hu, hv, hw, h1, hx, hy⟩
    have hu' : u = 1 - v - w := by linarith
    have k1 : ori t.b t.c p / ori t.a t.b t.c = u := by
      rw [div_eq_iff ho]
      unfold ori
      rw [hx, hy, hu']
      ring
    have k2 : ori t.c t.a p / ori t.a t.b t.c = v := by
      rw [div_eq_iff ho]
      unfold ori
      rw [hx, hy, hu']
      ring
    have k3 : ori t.a t.b p / ori t.a t.b t.c = w := by
      rw [div_eq_iff ho]
      unfold ori
      rw [hx, hy, hu']
      ring
    rw [k1, k2, k3]
    exact ⟨hu, hv, hw⟩

/-- **C27.** The three weights reported with a triangle sum to one and recombine its corners to the point that was asked for, so
that linear functions are interpolated exactly; they are positive for points inside. -/
theorem C27_weights (sq : K → K) (hs : IsSqrt sq) (t : Tri K) (h : ¬ Flat t.a t.b t.c) (p : Pt K) :
    let w := sigma sq t p
    w.1 + w.2.1 + w.2.2 = 1 ∧ w.1 * t.a.x + w.2.1 * t.b.x + w.2.2 * t.c.x = p.x ∧
      w.1 * t.a.y + w.2.1 * t.b.y + w.2.2 * t.c.y = p.y ∧
      (InTri p t.a t.b t.c → 0 < w.1 ∧ 0 < w.2.1 ∧ 0 < w.2.2) := by
  refine weights_of_ne sq (fun x hx h0 => ?_) t h p
  have := (hs x hx.le).2
  rw [h0] at this
  linarith

/-- **C27.** `search_fast` on a mesh tree: for a point of the mesh the answer is `True`, the index of a triangle containing it (up to
the tolerance) and weights with which every linear function is reproduced; where no triangle is near the answer is `False`. -/
theorem C27_search_fast (sq : K → K) (hs : IsSqrt sq) (fuel : ℕ) (root : Box K) (ts : List (Tri K)) (T : Tree K)
    (h : buildTree fuel (.new root) ts = some T) (hf : ∀ t ∈ ts, ¬ Flat t.a t.b t.c) (p : Pt K) :
    ((∃ t ∈ ts, Covers t p) → ∃ t ∈ ts, Almost t p ∧ ∃ w, searchFast sq T p = (true, w, (t.index : ℤ)) ∧
      ∀ al be ga : K, w.1 * (al + be * t.a.x + ga * t.a.y) + w.2.1 * (al + be * t.b.x + ga * t.b.y) +
        w.2.2 * (al + be * t.c.x + ga * t.c.y) = al + be * p.x + ga * p.y) ∧
    ((∀ t ∈ ts, ¬ Almost t p) → searchFast sq T p = (false, (-1, -1, -1), -10)) := by
  constructor
  · rintro ⟨t, ht, hc⟩
    obtain ⟨s, hs'⟩ := C27_complete fuel root ts T h p t ht hc
    obtain ⟨h1, h2⟩ := C27_found_contains fuel root ts T h p s hs'
    refine ⟨s, h1, h2, sigma sq s p, by unfold searchFast; rw [hs'], fun al be ga => ?_⟩
    obtain ⟨k1, k2, k3, -⟩ := C27_weights sq hs s (hf s h1) p
    rw [← k2, ← k3]
    have : al = al * ((sigma sq s p).1 + (sigma sq s p).2.1 + (sigma sq s p).2.2) := by rw [k1, mul_one]
    nth_rewrite 4 [this]
    ring
  · intro hno
    unfold searchFast
    cases hs' : T.search p with
    | none => rfl
    | some s =>
      obtain ⟨h1, h2⟩ := C27_found_contains fuel root ts T h p s hs'
      exact absurd h2 (hno s h1)

/-- Two triangles making up the unit square and a far smaller one. -/
def sampleTris : List (Tri ℚ) :=
  [⟨0, ⟨0, 0⟩, ⟨1, 0⟩, ⟨0, 1⟩⟩, ⟨1, ⟨1, 0⟩, ⟨1, 1⟩, ⟨0, 1⟩⟩, ⟨2, ⟨2, 2⟩, ⟨21 / 10, 2⟩, ⟨2, 21 / 10⟩⟩]

example : (∀ t ∈ sampleTris, TriIn t ⟨-1, 3, -1, 3⟩) ∧ (∀ t ∈ sampleTris, NotPoint t) ∧ ∀ t ∈ sampleTris, ¬ Flat t.a t.b t.c := by
  unfold sampleTris TriIn NotPoint Flat InBox
  decide +kernel

example : ((buildTree 9 (.new ⟨-1, 3, -1, 3⟩) sampleTris).map fun T =>
    (T.items, (T.search ⟨1 / 4, 1 / 4⟩).map Tri.index, (T.search ⟨41 / 20, 2⟩).map Tri.index, (T.search ⟨2, 0⟩).map Tri.index)) =
    some (3, some 0, some 2, none) := by decide +kernel

example : (meshTree 9 sampleTris[0] sampleTris.tail).isSome = true := by decide +kernel

/-- A square root exists on the reals, so the hypotheses about `sq` can be met. -/
example : IsSqrt Real.sqrt := isSqrt_real

end Verif.Quad
