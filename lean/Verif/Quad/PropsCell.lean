import Verif.Quad.Model
import Mathlib.Algebra.Order.Archimedean.Basic

/-! # C26: the tree of boxes -/

namespace Verif.Quad

set_option linter.unusedSectionVars false

open Verif.Polygon (Pt)

variable {K : Type*} [Field K] [LinearOrder K] [IsStrictOrderedRing K] {D : Type*}

/-! ## Vocabulary -/

/-- `p` lies in the closed box. -/
def InBox (p : Pt K) (b : Box K) : Prop := b.xmin ≤ p.x ∧ p.x ≤ b.xmax ∧ b.ymin ≤ p.y ∧ p.y ≤ b.ymax

instance (p : Pt K) (b : Box K) : Decidable (InBox p b) := inferInstanceAs (Decidable (_ ∧ _))

/-- A box that is more than a point. -/
def Extended (b : Box K) : Prop := b.xmin < b.xmax ∨ b.ymin < b.ymax

/-- A box with corners in order. -/
def Proper (b : Box K) : Prop := b.xmin ≤ b.xmax ∧ b.ymin ≤ b.ymax

theorem contains_iff (b : Box K) (p : Pt K) : b.contains p = true ↔ InBox p b := by
  simp only [Box.contains, InBox, Bool.and_eq_true, decide_eq_true_eq, and_assoc]

theorem trivialIn_iff (b t : Box K) :
    b.trivialIn t = true ↔ b.xmin ≤ t.xmin ∧ t.xmax ≤ b.xmax ∧ b.ymin ≤ t.ymin ∧ t.ymax ≤ b.ymax := by
  unfold Box.trivialIn
  split_ifs with h1 h2
  · simp only [false_iff]
    rintro ⟨a, b, -⟩
    rcases h1 with h | h
    · exact absurd a (not_le.2 h)
    · exact absurd b (not_le.2 h)
  · simp only [false_iff]
    rintro ⟨-, -, a, b⟩
    rcases h2 with h | h
    · exact absurd a (not_le.2 h)
    · exact absurd b (not_le.2 h)
  · push Not at h1 h2
    exact ⟨fun _ => ⟨h1.1, h1.2, h2.1, h2.2⟩, fun _ => rfl⟩

theorem inBox_of_trivialIn {b t : Box K} {p : Pt K} (h : b.trivialIn t = true) (hp : InBox p t) : InBox p b := by
  rw [trivialIn_iff] at h
  exact ⟨h.1.trans hp.1, hp.2.1.trans h.2.1, h.2.2.1.trans hp.2.2.1, hp.2.2.2.trans h.2.2.2⟩

/-! ## Contents -/

/-- Every item below a child lies inside the child's extents. -/
def Nested : Cell K D → Prop
  | .flat _ _ => True
  | .split _ _ c1 c2 => Nested c1 ∧ Nested c2 ∧ (∀ l ∈ c1.retrieve, c1.extents.trivialIn l.1 = true) ∧
      (∀ l ∈ c2.retrieve, c2.extents.trivialIn l.1 = true)

theorem insert_spec (f : ℕ) (c c' : Cell K D) (new : Box K × D) (h : insertItem f c new = .ok c') :
    c'.extents = c.extents ∧ c'.retrieve.Perm (c.retrieve ++ [new]) ∧ c'.count = c.count + 1 ∧ (Nested c → Nested c') := by
  induction f generalizing c c' with
  | zero => cases h
  | succ f ih =>
    cases c with
    | flat e ls =>
      simp only [insertItem] at h
      cases hs : e.split with
      | none => rw [hs] at h; cases h
      | some r =>
        rcases r with ⟨r1, r2⟩
        rw [hs] at h
        simp only at h
        split_ifs at h with h1 h2
        · cases hi : insertItem f (.flat r1 []) new with
          | error x => rw [hi] at h; cases h
          | ok c =>
            rw [hi] at h
            cases h
            obtain ⟨k1, k2, k3, k4⟩ := ih _ _ hi
            refine ⟨rfl, ?_, ?_, fun _ => ⟨k4 trivial, trivial, ?_, ?_⟩⟩
            · simp only [Cell.retrieve, List.append_nil]
              exact (List.Perm.refl ls).append (by simpa [Cell.retrieve] using k2)
            · simp only [Cell.count, k3, List.length_nil]
            · intro l hl
              rw [k1]
              have := k2.mem_iff.1 hl
              simp only [Cell.retrieve, List.nil_append, List.mem_singleton] at this
              rw [this]
              exact h1
            · intro l hl
              simp [Cell.retrieve] at hl
        · cases hi : insertItem f (.flat r2 []) new with
          | error x => rw [hi] at h; cases h
          | ok c =>
            rw [hi] at h
            cases h
            obtain ⟨k1, k2, k3, k4⟩ := ih _ _ hi
            refine ⟨rfl, ?_, ?_, fun _ => ⟨trivial, k4 trivial, ?_, ?_⟩⟩
            · simp only [Cell.retrieve, List.nil_append]
              exact (List.Perm.refl ls).append (by simpa [Cell.retrieve] using k2)
            · simp only [Cell.count, k3, List.length_nil]
            · intro l hl
              simp [Cell.retrieve] at hl
            · intro l hl
              rw [k1]
              have := k2.mem_iff.1 hl
              simp only [Cell.retrieve, List.nil_append, List.mem_singleton] at this
              rw [this]
              exact h2
        · cases h
          exact ⟨rfl, List.Perm.refl _, by simp [Cell.count], fun _ => trivial⟩
    | split e ls c1 c2 =>
      simp only [insertItem] at h
      split_ifs at h with h1 h2
      · cases hi : insertItem f c1 new with
        | error x => rw [hi] at h; cases h
        | ok c =>
          rw [hi] at h
          cases h
          obtain ⟨k1, k2, k3, k4⟩ := ih _ _ hi
          refine ⟨rfl, ?_, ?_, fun hn => ⟨k4 hn.1, hn.2.1, ?_, hn.2.2.2⟩⟩
          · simp only [Cell.retrieve, List.append_assoc]
            refine (List.Perm.refl ls).append ?_
            refine (k2.append_right _).trans ?_
            rw [List.append_assoc]
            exact (List.Perm.refl _).append List.perm_append_comm
          · simp only [Cell.count, k3]
            omega
          · intro l hl
            rw [k1]
            rcases List.mem_append.1 (k2.mem_iff.1 hl) with h3 | h3
            · exact hn.2.2.1 l h3
            · rw [List.mem_singleton.1 h3]
              exact h1
      · cases hi : insertItem f c2 new with
        | error x => rw [hi] at h; cases h
        | ok c =>
          rw [hi] at h
          cases h
          obtain ⟨k1, k2, k3, k4⟩ := ih _ _ hi
          refine ⟨rfl, ?_, ?_, fun hn => ⟨hn.1, k4 hn.2.1, hn.2.2.1, ?_⟩⟩
          · simp only [Cell.retrieve, List.append_assoc]
            exact (List.Perm.refl ls).append ((List.Perm.refl _).append k2)
          · simp only [Cell.count, k3]
            omega
          · intro l hl
            rw [k1]
            rcases List.mem_append.1 (k2.mem_iff.1 hl) with h3 | h3
            · exact hn.2.2.2 l h3
            · rw [List.mem_singleton.1 h3]
              exact h2
      · cases h
        refine ⟨rfl, ?_, by simp [Cell.count]; omega, fun hn => hn⟩
        simp only [Cell.retrieve, List.append_assoc]
        refine (List.Perm.refl ls).append ?_
        rw [← List.append_assoc c1.retrieve]
        exact List.perm_append_comm

theorem insertAll_spec (f : ℕ) (items : List (Box K × D)) (c c' : Cell K D) (h : insertAll f c items = .ok c') :
    c'.retrieve.Perm (c.retrieve ++ items) ∧ c'.count = c.count + items.length ∧ (Nested c → Nested c') := by
  induction items generalizing c with
  | nil =>
    cases h
    simp
  | cons new rest ih =>
    simp only [insertAll] at h
    cases hi : insertItem f c new with
    | error x => rw [hi] at h; cases h
    | ok d =>
      rw [hi] at h
      obtain ⟨-, k2, k3, k4⟩ := insert_spec f c d new hi
      obtain ⟨j1, j2, j3⟩ := ih d h
      refine ⟨j1.trans ?_, by rw [j2, k3, List.length_cons]; omega, fun hn => j3 (k4 hn)⟩
      refine (k2.append_right rest).trans ?_
      simp

/-- **C26.** Retrieving everything returns the inserted items, each as often as it was inserted, and `count` is their number. -/
theorem C26_retrieve (fuel : ℕ) (root : Box K) (items : List (Box K × D)) (c : Cell K D)
    (h : insertAll fuel (.flat root []) items = .ok c) : c.retrieve.Perm items ∧ c.count = items.length := by
  obtain ⟨h1, h2, -⟩ := insertAll_spec fuel items _ _ h
  exact ⟨by simpa [Cell.retrieve] using h1, by simpa [Cell.count] using h2⟩

theorem search_eq (c : Cell K D) (hn : Nested c) (p : Pt K) : c.search p = testLeaves c.retrieve p := by
  induction c with
  | flat e ls => rfl
  | split e ls c1 c2 ih1 ih2 =>
    obtain ⟨n1, n2, b1, b2⟩ := hn
    have aux : ∀ c : Cell K D, (∀ l ∈ c.retrieve, c.extents.trivialIn l.1 = true) →
        (if c.extents.contains p then testLeaves c.retrieve p else []) = testLeaves c.retrieve p := by
      intro c hc
      by_cases h : c.extents.contains p = true
      · rw [if_pos h]
      · rw [if_neg h]
        unfold testLeaves
        rw [List.filter_eq_nil_iff.2, List.map_nil]
        intro l hl hl2
        exact h ((contains_iff _ _).2 (inBox_of_trivialIn (hc l hl) ((contains_iff _ _).1 hl2)))
    simp only [Cell.search, Cell.retrieve]
    rw [ih1 n1, ih2 n2, aux c1 b1, aux c2 b2]
    simp [testLeaves, List.filter_append]

/-- **C26.** Searching at a point returns the data of exactly those inserted items whose box contains the point, each as often
as it was inserted, whatever the order of insertion; boxes may overlap, repeat or stick out of the root's extents. -/
theorem C26_search (fuel : ℕ) (root : Box K) (items : List (Box K × D)) (c : Cell K D)
    (h : insertAll fuel (.flat root []) items = .ok c) (p : Pt K) :
    (c.search p).Perm ((items.filter fun l => decide (InBox p l.1)).map Prod.snd) := by
  obtain ⟨h1, -, h3⟩ := insertAll_spec fuel items _ _ h
  rw [search_eq c (h3 trivial) p]
  unfold testLeaves
  have h1' : c.retrieve.Perm items := by simpa [Cell.retrieve] using h1
  refine ((h1'.filter _).map _).trans ?_
  rw [List.filter_congr]
  intro l _
  rw [Bool.eq_iff_iff, contains_iff, decide_eq_true_eq]

/-! ## Termination -/

/-- Extents of children are the two halves made by `split`. -/
def Halved : Cell K D → Prop
  | .flat _ _ => True
  | .split e _ c1 c2 => e.split = some (c1.extents, c2.extents) ∧ Halved c1 ∧ Halved c2

theorem insert_halved (f : ℕ) (c c' : Cell K D) (new : Box K × D) (h : insertItem f c new = .ok c') (hc : Halved c) :
    Halved c' := by
  induction f generalizing c c' with
  | zero => cases h
  | succ f ih =>
    cases c with
    | flat e ls =>
      simp only [insertItem] at h
      cases hs : e.split with
      | none => rw [hs] at h; cases h
      | some r =>
        rcases r with ⟨r1, r2⟩
        rw [hs] at h
        simp only at h
        split_ifs at h with h1 h2
        · cases hi : insertItem f (.flat r1 []) new with
          | error x => rw [hi] at h; cases h
          | ok c =>
            rw [hi] at h
            cases h
            exact ⟨by rw [hs, (insert_spec _ _ _ _ hi).1]; rfl, ih _ _ hi trivial, trivial⟩
        · cases hi : insertItem f (.flat r2 []) new with
          | error x => rw [hi] at h; cases h
          | ok c =>
            rw [hi] at h
            cases h
            exact ⟨by rw [hs, (insert_spec _ _ _ _ hi).1]; rfl, trivial, ih _ _ hi trivial⟩
        · cases h
          exact trivial
    | split e ls c1 c2 =>
      obtain ⟨hs, n1, n2⟩ := hc
      simp only [insertItem] at h
      split_ifs at h with h1 h2
      · cases hi : insertItem f c1 new with
        | error x => rw [hi] at h; cases h
        | ok c =>
          rw [hi] at h
          cases h
          exact ⟨by rw [hs, (insert_spec _ _ _ _ hi).1], ih _ _ hi n1, n2⟩
      · cases hi : insertItem f c2 new with
        | error x => rw [hi] at h; cases h
        | ok c =>
          rw [hi] at h
          cases h
          exact ⟨by rw [hs, (insert_spec _ _ _ _ hi).1], n1, ih _ _ hi n2⟩
      · cases h
        exact ⟨hs, n1, n2⟩

/-- Sizes of both halves: the longer side shrinks to 55 %, the other stays. -/
theorem split_size {b r1 r2 : Box K} (h : b.split = some (r1, r2)) (r : Box K) (hr : r = r1 ∨ r = r2) :
    Proper b ∧ Proper r ∧
      ((b.xmax - b.xmin > b.ymax - b.ymin ∧ r.xmax - r.xmin = (b.xmax - b.xmin) * border ∧ r.ymax - r.ymin = b.ymax - b.ymin) ∨
       (b.xmax - b.xmin ≤ b.ymax - b.ymin ∧ r.xmax - r.xmin = b.xmax - b.xmin ∧ r.ymax - r.ymin = (b.ymax - b.ymin) * border)) := by
  have hb : (0 : K) ≤ border := by unfold border; norm_num
  unfold Box.split at h
  simp only at h
  split_ifs at h with h1 h2
  · simp only [Option.some.injEq, Prod.mk.injEq] at h
    obtain ⟨rfl, rfl⟩ := h
    have := mul_nonneg h1.1 hb
    rcases hr with rfl | rfl
    · exact ⟨⟨by linarith, by linarith⟩, ⟨by simp only; linarith, by simp only; linarith⟩, Or.inl ⟨h2, by simp only; ring, rfl⟩⟩
    · exact ⟨⟨by linarith, by linarith⟩, ⟨by simp only; linarith, by simp only; linarith⟩, Or.inl ⟨h2, by simp only; ring, rfl⟩⟩
  · simp only [Option.some.injEq, Prod.mk.injEq] at h
    obtain ⟨rfl, rfl⟩ := h
    have := mul_nonneg h1.2 hb
    rcases hr with rfl | rfl
    · exact ⟨⟨by linarith, by linarith⟩, ⟨by simp only; linarith, by simp only; linarith⟩,
        Or.inr ⟨not_lt.1 h2, rfl, by simp only; ring⟩⟩
    · exact ⟨⟨by linarith, by linarith⟩, ⟨by simp only; linarith, by simp only; linarith⟩,
        Or.inr ⟨not_lt.1 h2, rfl, by simp only; ring⟩⟩

theorem split_some {b : Box K} (hb : Proper b) : ∃ r1 r2, b.split = some (r1, r2) := by
  unfold Box.split
  simp only
  rw [if_pos ⟨sub_nonneg.2 hb.1, sub_nonneg.2 hb.2⟩]
  split_ifs
  · exact ⟨_, _, rfl⟩
  · exact ⟨_, _, rfl⟩

/-- `lvl n M` bounds the sides `w, h` of a cell: at most `M`, and after `n` further splits below. -/
def SizeLe (s t : K) (b : Box K) : Prop :=
  (b.xmax - b.xmin ≤ s ∧ b.ymax - b.ymin ≤ t) ∨ (b.xmax - b.xmin ≤ t ∧ b.ymax - b.ymin ≤ s)

/-- One split turns a cell with sides at most `s` into one with sides at most `s` and `0.55 s`, and such a cell into one with
sides at most `0.55 s`. -/
theorem split_shrinks {b r1 r2 : Box K} (h : b.split = some (r1, r2)) (r : Box K) (hr : r = r1 ∨ r = r2) (s : K) :
    (SizeLe s s b → SizeLe s (s * border) r) ∧ (SizeLe s (s * border) b → SizeLe (s * border) (s * border) r) := by
  have hb0 : (0 : K) ≤ border := by unfold border; norm_num
  have hb1 : (border : K) ≤ 1 := by unfold border; norm_num
  obtain ⟨hb, hr', hsz⟩ := split_size h r hr
  unfold Proper at hb hr'
  unfold SizeLe
  constructor
  · intro hs
    have hx : b.xmax - b.xmin ≤ s := by rcases hs with hs | hs <;> exact hs.1
    have hy : b.ymax - b.ymin ≤ s := by rcases hs with hs | hs <;> exact hs.2
    rcases hsz with ⟨-, h2, h3⟩ | ⟨-, h2, h3⟩
    · right
      exact ⟨by rw [h2]; exact mul_le_mul_of_nonneg_right hx hb0, by rw [h3]; exact hy⟩
    · left
      exact ⟨by rw [h2]; exact hx, by rw [h3]; exact mul_le_mul_of_nonneg_right hy hb0⟩
  · intro hs
    have hs0 : 0 ≤ s := by
      rcases hs with hs | hs
      · linarith [hs.1, hb.1]
      · linarith [hs.2, hb.2]
    have hsb : s * border ≤ s := by nlinarith
    left
    rcases hsz with ⟨h1, h2, h3⟩ | ⟨h1, h2, h3⟩
    · rw [h2, h3]
      rcases hs with hs | hs
      · exact ⟨mul_le_mul_of_nonneg_right hs.1 hb0, hs.2⟩
      · exact ⟨mul_le_mul_of_nonneg_right (hs.1.trans hsb) hb0, by linarith [hs.1]⟩
    · rw [h2, h3]
      rcases hs with hs | hs
      · exact ⟨by linarith [hs.2], mul_le_mul_of_nonneg_right (hs.2.trans hsb) hb0⟩
      · exact ⟨hs.1, mul_le_mul_of_nonneg_right hs.2 hb0⟩

/-- Insertion into a cell too small for the box, or into one that becomes too small after finitely many splits. -/
theorem insert_ends (new : Box K × D) (n : ℕ) (c : Cell K D) (hc : Halved c) (hp : Proper c.extents) (s : K) (hs : 0 ≤ s)
    (hsz : SizeLe s s c.extents)
    (hsmall : s * border ^ n < new.1.xmax - new.1.xmin ∨ s * border ^ n < new.1.ymax - new.1.ymin) :
    ∀ f, 2 * n + 1 ≤ f → ∃ c', insertItem f c new = .ok c' := by
  have hb0 : (0 : K) ≤ border := by unfold border; norm_num
  have hb1 : (border : K) ≤ 1 := by unfold border; norm_num
  -- a box fitting into `b` is no larger than `b`
  have fits : ∀ b : Box K, b.trivialIn new.1 = true →
      new.1.xmax - new.1.xmin ≤ b.xmax - b.xmin ∧ new.1.ymax - new.1.ymin ≤ b.ymax - b.ymin := by
    intro b hb
    rw [trivialIn_iff] at hb
    exact ⟨by linarith [hb.1, hb.2.1], by linarith [hb.2.2.1, hb.2.2.2]⟩
  -- one level: descend into a child or stop
  have level : ∀ (m : ℕ) (c : Cell K D), Halved c → Proper c.extents →
      (∀ c1 : Cell K D, Halved c1 → Proper c1.extents → (∃ r1 r2, c.extents.split = some (r1, r2) ∧ (c1.extents = r1 ∨ c1.extents = r2)) →
        c1.extents.trivialIn new.1 = true → ∀ f, m ≤ f → ∃ c', insertItem f c1 new = .ok c') →
      ∀ f, m + 1 ≤ f → ∃ c', insertItem f c new = .ok c' := by
    intro m c hc hp hrec f hf
    obtain ⟨f, rfl⟩ : ∃ g, f = g + 1 := ⟨f - 1, by omega⟩
    cases c with
    | flat e ls =>
      obtain ⟨r1, r2, hspl⟩ := split_some hp
      simp only [Cell.extents] at hspl hrec
      simp only [insertItem, hspl]
      split_ifs with h1 h2
      · obtain ⟨c', hc'⟩ := hrec (.flat r1 []) trivial (split_size hspl r1 (Or.inl rfl)).2.1 ⟨r1, r2, hspl, Or.inl rfl⟩ h1 f (by omega)
        rw [hc']
        exact ⟨_, rfl⟩
      · obtain ⟨c', hc'⟩ := hrec (.flat r2 []) trivial (split_size hspl r2 (Or.inr rfl)).2.1 ⟨r1, r2, hspl, Or.inr rfl⟩ h2 f (by omega)
        rw [hc']
        exact ⟨_, rfl⟩
      · exact ⟨_, rfl⟩
    | split e ls c1 c2 =>
      obtain ⟨hspl, n1, n2⟩ := hc
      simp only [Cell.extents] at hrec
      simp only [insertItem]
      split_ifs with h1 h2
      · obtain ⟨c', hc'⟩ := hrec c1 n1 (split_size hspl c1.extents (Or.inl rfl)).2.1 ⟨_, _, hspl, Or.inl rfl⟩ h1 f (by omega)
        rw [hc']
        exact ⟨_, rfl⟩
      · obtain ⟨c', hc'⟩ := hrec c2 n2 (split_size hspl c2.extents (Or.inr rfl)).2.1 ⟨_, _, hspl, Or.inr rfl⟩ h2 f (by omega)
        rw [hc']
        exact ⟨_, rfl⟩
      · exact ⟨_, rfl⟩
  induction n generalizing c s with
  | zero =>
    rw [pow_zero, mul_one] at hsmall
    apply level 0 c hc hp
    intro c1 _ _ ⟨r1, r2, hspl, hc1⟩ hin f _
    exfalso
    have h1 := fits _ hin
    obtain ⟨-, -, h2⟩ := split_size hspl c1.extents hc1
    unfold Proper at hp
    have hx : c.extents.xmax - c.extents.xmin ≤ s := by rcases hsz with h | h <;> exact h.1
    have hy : c.extents.ymax - c.extents.ymin ≤ s := by rcases hsz with h | h <;> exact h.2
    have m1 : (c.extents.xmax - c.extents.xmin) * border ≤ c.extents.xmax - c.extents.xmin :=
      mul_le_of_le_one_right (by linarith) hb1
    have m2 : (c.extents.ymax - c.extents.ymin) * border ≤ c.extents.ymax - c.extents.ymin :=
      mul_le_of_le_one_right (by linarith) hb1
    rcases h2 with ⟨-, h2, h3⟩ | ⟨-, h2, h3⟩ <;> rcases hsmall with h | h <;> linarith [h1.1, h1.2]
  | succ n ih =>
    have e : 2 * (n + 1) + 1 = (2 * n + 1 + 1) + 1 := by ring
    rw [e]
    apply level _ c hc hp
    intro c1 hc1 hp1 ⟨r1, r2, hspl, hr⟩ _
    apply level _ c1 hc1 hp1
    intro c2 hc2 hp2 ⟨r1', r2', hspl', hr'⟩ _
    have s1 := (split_shrinks hspl c1.extents hr s).1 hsz
    have s2 := (split_shrinks hspl' c2.extents hr' s).2 s1
    apply ih c2 hc2 hp2 (s * border) (mul_nonneg hs hb0) s2
    rw [mul_assoc, ← pow_succ']
    exact hsmall

theorem border_pow_small [Archimedean K] (s e : K) (hs : 0 ≤ s) (he : 0 < e) : ∃ n : ℕ, s * border ^ n < e := by
  have hb1 : (border : K) < 1 := by unfold border; norm_num
  have hb0 : (0 : K) ≤ border := by unfold border; norm_num
  rcases hs.eq_or_lt with h | h
  · exact ⟨0, by rw [← h, zero_mul]; exact he⟩
  · obtain ⟨n, hn⟩ := exists_pow_lt_of_lt_one (div_pos he h) hb1
    refine ⟨n, ?_⟩
    rw [mul_comm]
    exact (lt_div_iff₀ h).1 hn

/-- **C26.** Insertion of a list of boxes that are more than points into a fresh tree always ends: there is a depth of recursion
that suffices. -/
theorem C26_terminates [Archimedean K] (root : Box K) (hr : Proper root) (items : List (Box K × D))
    (hi : ∀ l ∈ items, Extended l.1) :
    ∃ N, ∀ fuel, N ≤ fuel → ∃ c, insertAll fuel (.flat root []) items = .ok c := by
  have hnn : 0 ≤ max (root.xmax - root.xmin) (root.ymax - root.ymin) := le_max_of_le_left (sub_nonneg.2 hr.1)
  -- a depth that suffices for one item in any tree over these extents
  have one : ∀ l : Box K × D, Extended l.1 → ∃ N, ∀ fuel, N ≤ fuel → ∀ c : Cell K D, Halved c → c.extents = root →
      ∃ c', insertItem fuel c l = .ok c' := by
    intro l hl
    have : ∃ n : ℕ, max (root.xmax - root.xmin) (root.ymax - root.ymin) * border ^ n < l.1.xmax - l.1.xmin ∨
        max (root.xmax - root.xmin) (root.ymax - root.ymin) * border ^ n < l.1.ymax - l.1.ymin := by
      rcases hl with h | h
      · obtain ⟨n, hn⟩ := border_pow_small _ _ hnn (sub_pos.2 h)
        exact ⟨n, Or.inl hn⟩
      · obtain ⟨n, hn⟩ := border_pow_small _ _ hnn (sub_pos.2 h)
        exact ⟨n, Or.inr hn⟩
    obtain ⟨n, hn⟩ := this
    refine ⟨2 * n + 1, fun fuel hf c hc he => ?_⟩
    apply insert_ends l n c hc (by rw [he]; exact hr) _ hnn ?_ hn fuel hf
    rw [he]
    exact Or.inl ⟨le_max_left _ _, le_max_right _ _⟩
  have all : ∀ items : List (Box K × D), (∀ l ∈ items, Extended l.1) →
      ∃ N, ∀ fuel, N ≤ fuel → ∀ c : Cell K D, Halved c → c.extents = root → ∃ c', insertAll fuel c items = .ok c' := by
    intro items
    induction items with
    | nil => exact fun _ => ⟨0, fun fuel _ c _ _ => ⟨c, rfl⟩⟩
    | cons l rest ih =>
      intro hi
      obtain ⟨N1, h1⟩ := one l (hi l (by simp))
      obtain ⟨N2, h2⟩ := ih fun l hl => hi l (by simp [hl])
      refine ⟨max N1 N2, fun fuel hf c hc he => ?_⟩
      obtain ⟨c', hc'⟩ := h1 fuel (le_trans (le_max_left _ _) hf) c hc he
      obtain ⟨c'', hc''⟩ := h2 fuel (le_trans (le_max_right _ _) hf) c' (insert_halved _ _ _ _ hc' hc)
        (by rw [(insert_spec _ _ _ _ hc').1, he])
      exact ⟨c'', by simp only [insertAll, hc', hc'']⟩
  obtain ⟨N, hN⟩ := all items hi
  exact ⟨N, fun fuel hf => hN fuel hf _ trivial rfl⟩

/-- **C26.** A box that is a single point inside the extents is never placed: whatever depth of recursion is available, it is
exhausted (`RecursionError`). -/
theorem C26_point_box_fails (root : Box K) (p : Pt K) (hp : InBox p root) (d : D) :
    ∀ fuel, insertItem fuel (.flat root []) (⟨p.x, p.x, p.y, p.y⟩, d) = .error .recursion := by
  intro fuel
  induction fuel generalizing root with
  | zero => rfl
  | succ f ih =>
    have hproper : Proper root := ⟨hp.1.trans hp.2.1, hp.2.2.1.trans hp.2.2.2⟩
    obtain ⟨r1, r2, hspl⟩ := split_some hproper
    have cover : InBox p r1 ∨ InBox p r2 := by
      unfold Box.split at hspl
      simp only at hspl
      rw [if_pos ⟨sub_nonneg.2 hproper.1, sub_nonneg.2 hproper.2⟩] at hspl
      obtain ⟨a, b, c, e⟩ := hp
      split_ifs at hspl with h
      · simp only [Option.some.injEq, Prod.mk.injEq] at hspl
        obtain ⟨rfl, rfl⟩ := hspl
        by_cases hx : p.x ≤ root.xmin + (root.xmax - root.xmin) * border
        · exact Or.inl ⟨a, hx, c, e⟩
        · refine Or.inr ⟨?_, b, c, e⟩
          push Not at hx
          simp only
          have : (root.xmax - root.xmin) * border + (root.xmax - root.xmin) * border ≥ root.xmax - root.xmin := by
            unfold border; linarith [hproper.1]
          linarith
      · simp only [Option.some.injEq, Prod.mk.injEq] at hspl
        obtain ⟨rfl, rfl⟩ := hspl
        by_cases hy : p.y ≤ root.ymin + (root.ymax - root.ymin) * border
        · exact Or.inl ⟨a, b, c, hy⟩
        · refine Or.inr ⟨a, b, ?_, e⟩
          push Not at hy
          simp only
          have : (root.ymax - root.ymin) * border + (root.ymax - root.ymin) * border ≥ root.ymax - root.ymin := by
            unfold border; linarith [hproper.2]
          linarith
    simp only [insertItem, hspl]
    have tiff : ∀ r : Box K, r.trivialIn ⟨p.x, p.x, p.y, p.y⟩ = true ↔ InBox p r := by
      intro r
      rw [trivialIn_iff]
      rfl
    by_cases h1 : InBox p r1
    · rw [if_pos ((tiff r1).2 h1), ih r1 h1]
    · rw [if_neg (fun h => h1 ((tiff r1).1 h)), if_pos ((tiff r2).2 (cover.resolve_left h1)), ih r2 (cover.resolve_left h1)]

/-! ## Boxes around points -/

/-- **C26.** The box made from a list of points contains all of them and is the smallest such box. -/
theorem C26_bounding_box (p : Pt K) (ps : List (Pt K)) :
    (∀ q ∈ p :: ps, InBox q (Box.ofPoints p ps)) ∧
      ∀ b : Box K, (∀ q ∈ p :: ps, InBox q b) → b.trivialIn (Box.ofPoints p ps) = true := by
  have mono : ∀ (ps : List (Pt K)) (b : Box K), (Box.include b ps).trivialIn b = true := by
    intro ps
    induction ps with
    | nil => intro b; rw [trivialIn_iff]; exact ⟨le_refl _, le_refl _, le_refl _, le_refl _⟩
    | cons q qs ih =>
      intro b
      have h := (trivialIn_iff _ _).1 (ih (b.grow1 q))
      rw [trivialIn_iff]
      have g : (b.grow1 q).xmin ≤ b.xmin ∧ b.xmax ≤ (b.grow1 q).xmax ∧ (b.grow1 q).ymin ≤ b.ymin ∧ b.ymax ≤ (b.grow1 q).ymax := by
        simp only [Box.grow1]
        refine ⟨?_, ?_, ?_, ?_⟩ <;> split_ifs with h <;> first | exact le_of_lt h | exact le_refl _
      exact ⟨h.1.trans g.1, g.2.1.trans h.2.1, h.2.2.1.trans g.2.2.1, g.2.2.2.trans h.2.2.2⟩
  have all : ∀ (ps : List (Pt K)) (b : Box K), ∀ q ∈ ps, InBox q (Box.include b ps) := by
    intro ps
    induction ps with
    | nil => simp
    | cons q qs ih =>
      intro b r hr
      rcases List.mem_cons.1 hr with rfl | hr
      · refine inBox_of_trivialIn (mono qs (b.grow1 r)) ?_
        simp only [Box.grow1, InBox]
        refine ⟨?_, ?_, ?_, ?_⟩ <;> split_ifs with h <;> first | exact le_refl _ | exact not_lt.1 h
      · exact ih (b.grow1 q) r hr
  have least : ∀ (ps : List (Pt K)) (b c : Box K), c.trivialIn b = true → (∀ q ∈ ps, InBox q c) →
      c.trivialIn (Box.include b ps) = true := by
    intro ps
    induction ps with
    | nil => exact fun b c h _ => h
    | cons q qs ih =>
      intro b c h hq
      apply ih (b.grow1 q) c ?_ fun r hr => hq r (by simp [hr])
      rw [trivialIn_iff] at h ⊢
      obtain ⟨a1, a2, a3, a4⟩ := hq q (by simp)
      simp only [Box.grow1]
      refine ⟨?_, ?_, ?_, ?_⟩ <;> split_ifs <;> first | assumption | exact h.1 | exact h.2.1 | exact h.2.2.1 | exact h.2.2.2
  refine ⟨fun q hq => ?_, fun b hb => ?_⟩
  · rcases List.mem_cons.1 hq with rfl | hq
    · exact inBox_of_trivialIn (mono ps _) ⟨le_refl _, le_refl _, le_refl _, le_refl _⟩
    · exact all ps _ q hq
  · refine least ps _ b ?_ fun q hq => hb q (by simp [hq])
    rw [trivialIn_iff]
    obtain ⟨a1, a2, a3, a4⟩ := hb p (by simp)
    exact ⟨a1, a2, a3, a4⟩

/-- Four boxes in the unit square, one of them twice, one sticking out. -/
def sampleItems : List (Box ℚ × ℕ) :=
  [(⟨0, 1 / 10, 0, 1 / 10⟩, 1), (⟨1 / 20, 3 / 10, 0, 1⟩, 2), (⟨0, 1 / 10, 0, 1 / 10⟩, 3), (⟨1 / 2, 2, 1 / 2, 2⟩, 4)]

example : Proper (⟨0, 1, 0, 1⟩ : Box ℚ) ∧ ∀ l ∈ sampleItems, Extended l.1 := by
  unfold Proper sampleItems Extended
  decide +kernel

example : (match insertAll 20 (.flat ⟨0, 1, 0, 1⟩ []) sampleItems with
    | .ok c => (c.count, c.search ⟨1 / 20, 1 / 20⟩, c.search ⟨3 / 2, 3 / 2⟩)
    | .error _ => (0, [], [])) = (4, [2, 1, 3], [4]) := by decide +kernel

end Verif.Quad
