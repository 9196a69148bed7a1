import Verif.Wall.Lemmas
import Mathlib.Data.List.Nodup
import Mathlib.Data.List.Count

/-! # Loose ends of a wall -/

set_option linter.unusedSectionVars false

namespace Verif.Wall

variable {K : Type*} [Field K] [LinearOrder K] [IsStrictOrderedRing K]

theorem unique_spec (D : Dom K) (es : List ℕ) : ∀ seen : List ℕ, (seen.Pairwise fun e f => D.mid e ≠ D.mid f) →
    ((unique D seen es).Pairwise fun e f => D.mid e ≠ D.mid f) ∧ (∀ e ∈ unique D seen es, e ∈ seen ∨ e ∈ es) ∧
    (∀ e, e ∈ seen ∨ e ∈ es → ∃ f ∈ unique D seen es, D.mid f = D.mid e) := by
  induction es with
  | nil => intro seen h; exact ⟨h, fun e he => Or.inl he, fun e he => ⟨e, by unfold unique; simpa using he, rfl⟩⟩
  | cons x es ih =>
    intro seen h
    unfold unique
    by_cases hx : (seen.any fun f => decide (D.mid f = D.mid x)) = true
    · rw [if_pos hx]
      obtain ⟨h1, h2, h3⟩ := ih seen h
      refine ⟨h1, fun e he => (h2 e he).imp_right (List.mem_cons_of_mem _), fun e he => ?_⟩
      rcases he with he | he
      · exact h3 e (Or.inl he)
      · rcases List.mem_cons.mp he with rfl | he
        · obtain ⟨f, f1, f2⟩ := List.any_eq_true.mp hx
          obtain ⟨g, g1, g2⟩ := h3 f (Or.inl f1)
          exact ⟨g, g1, g2.trans (of_decide_eq_true f2)⟩
        · exact h3 e (Or.inr he)
    · rw [if_neg hx]
      obtain ⟨h1, h2, h3⟩ := ih (seen ++ [x]) (by
        rw [List.pairwise_append]
        refine ⟨h, by simp, fun a ha b hb => ?_⟩
        rw [List.mem_singleton] at hb
        subst hb
        intro hh
        exact hx (List.any_eq_true.mpr ⟨a, ha, decide_eq_true hh⟩))
      refine ⟨h1, fun e he => ?_, fun e he => h3 e ?_⟩
      · rcases h2 e he with h | h
        · rcases List.mem_append.mp h with h | h
          · exact Or.inl h
          · exact Or.inr (by rw [List.mem_singleton.mp h]; simp)
        · exact Or.inr (List.mem_cons_of_mem _ h)
      · rcases he with he | he
        · exact Or.inl (List.mem_append_left _ he)
        · rcases List.mem_cons.mp he with rfl | he
          · exact Or.inl (by simp)
          · exact Or.inr he

theorem sum_ite (P : ℕ → Prop) [DecidablePred P] (u : List ℕ) : (u.map fun e => if P e then 1 else 0).sum = u.countP fun e => decide (P e) := by
  induction u with
  | nil => rfl
  | cons e u ih =>
    rw [List.map_cons, List.sum_cons, ih]
    by_cases h : P e
    · rw [if_pos h, List.countP_cons_of_pos (by simpa using h), add_comm]
    · rw [if_neg h, List.countP_cons_of_neg (by simpa using h), zero_add]

theorem single {M : List ℕ} (h : M.Nodup) {g : ℕ} (hg : g ∈ M) (hu : ∀ f ∈ M, f = g) : M = [g] := by
  cases M with
  | nil => simp at hg
  | cons a l =>
    have ha := hu a (by simp)
    subst ha
    have : l = [] := List.eq_nil_iff_forall_not_mem.mpr fun b hb => by
      have := hu b (by simp [hb])
      subst this
      exact (List.nodup_cons.mp h).1 hb
    rw [this]

theorem countP_one {u : List ℕ} (h : u.Nodup) (q : ℕ → Bool) : u.countP q = 1 ↔ ∃ e ∈ u, q e = true ∧ ∀ f ∈ u, q f = true → f = e := by
  rw [List.countP_eq_length_filter]
  constructor
  · intro h1
    obtain ⟨e, he⟩ := List.length_eq_one_iff.mp h1
    have hm : ∀ f, f ∈ u.filter q ↔ f = e := fun f => by rw [he, List.mem_singleton]
    have := (hm e).mpr rfl
    rw [List.mem_filter] at this
    exact ⟨e, this.1, this.2, fun f f1 f2 => (hm f).mp (List.mem_filter.mpr ⟨f1, f2⟩)⟩
  · rintro ⟨e, e1, e2, e3⟩
    rw [single (h.filter q) (List.mem_filter.mpr ⟨e1, e2⟩) fun f hf => e3 f (List.mem_filter.mp hf).1 (List.mem_filter.mp hf).2]
    rfl

/-- Times a place occurs as an end. -/
def times (D : Dom K) (u : List ℕ) (p : K × K) : ℕ :=
  u.countP (fun e => decide (D.vert (ends e).1 = p)) + u.countP (fun e => decide (D.vert (ends e).2 = p))

theorem times_eq {D : Dom K} (hp : D.Proper) (u : List ℕ) (p : K × K) :
    times D u p = u.countP fun e => decide (D.vert (ends e).1 = p) || decide (D.vert (ends e).2 = p) := by
  unfold times
  induction u with
  | nil => rfl
  | cons e u ih =>
    simp only [List.countP_cons]
    have : ¬ (D.vert (ends e).1 = p ∧ D.vert (ends e).2 = p) := fun h => hp.1 e (h.1.trans h.2.symm)
    by_cases h1 : D.vert (ends e).1 = p <;> by_cases h2 : D.vert (ends e).2 = p <;> simp [h1, h2] at * <;> omega

theorem onBoundary_iff (D : Dom K) (p : K × K) : D.onBoundary p = true ↔ D.Bdry p := by
  unfold Dom.onBoundary Dom.Bdry Dom.End
  rw [List.any_eq_true]
  constructor
  · rintro ⟨b, h1, h2⟩
    rw [Bool.or_eq_true, decide_eq_true_eq, decide_eq_true_eq, Nat.mul_comm] at h2
    exact ⟨b.1, b.2, h1, h2⟩
  · rintro ⟨k, i, h1, h2⟩
    refine ⟨(k, i), h1, ?_⟩
    rw [Bool.or_eq_true, decide_eq_true_eq, decide_eq_true_eq, Nat.mul_comm]
    exact h2

theorem two_at_most {α : Type*} {M : List α} (h : M.Nodup) : M.length ≤ 2 ↔ ¬ ∃ p q r, p ≠ q ∧ p ≠ r ∧ q ≠ r ∧ p ∈ M ∧ q ∈ M ∧ r ∈ M := by
  constructor
  · rintro hl ⟨p, q, r, h1, h2, h3, hp, hq, hr⟩
    match M, hl with
    | [], _ => simp at hp
    | [a], _ =>
      simp only [List.mem_singleton] at hp hq
      exact h1 (hp.trans hq.symm)
    | [a, b], _ =>
      simp only [List.mem_cons, List.not_mem_nil, or_false] at hp hq hr
      rcases hp with rfl | rfl <;> rcases hq with rfl | rfl <;> rcases hr with rfl | rfl <;> simp_all
  · intro hn
    by_contra hl
    match M, hl with
    | [], hl => simp at hl
    | [_], hl => simp at hl
    | [_, _], hl => simp at hl
    | a :: b :: c :: l, _ =>
      rw [List.nodup_cons, List.nodup_cons] at h
      refine hn ⟨a, b, c, ?_, ?_, ?_, by simp, by simp, by simp⟩
      · rintro rfl; exact h.1 (by simp)
      · rintro rfl; exact h.1 (by simp)
      · rintro rfl; exact h.2.1 (by simp)

/-- Places that occur once and not on the boundary. -/
def places (D : Dom K) (u : List ℕ) : List (K × K) :=
  ((u.map fun e => D.vert (ends e).1) ++ u.map fun e => D.vert (ends e).2).filter fun p => decide (times D u p = 1 ∧ D.onBoundary p = false)

theorem loose_eq (D : Dom K) (u : List ℕ) : loose D u = (places D u).length := by
  unfold loose places
  rw [List.filter_append, List.length_append, ← List.countP_eq_length_filter, ← List.countP_eq_length_filter, List.countP_map, List.countP_map]
  simp only [sum_ite]
  rfl

theorem times_count (D : Dom K) (u : List ℕ) (p : K × K) :
    times D u p = ((u.map fun e => D.vert (ends e).1) ++ u.map fun e => D.vert (ends e).2).count p := by
  unfold times
  rw [List.count_append]
  simp only [List.count_eq_countP, List.countP_map]
  congr 1 <;>
  · refine List.countP_congr fun e _ => ?_
    simp

theorem places_nodup (D : Dom K) (u : List ℕ) : (places D u).Nodup := by
  rw [List.nodup_iff_count_le_one]
  intro p
  by_cases hp : p ∈ places D u
  · have h1 : times D u p = 1 := by
      unfold places at hp
      rw [List.mem_filter, decide_eq_true_eq] at hp
      exact hp.2.1
    refine le_trans ?_ h1.le
    rw [times_count]
    exact List.Sublist.count_le _ List.filter_sublist
  · rw [List.count_eq_zero_of_not_mem hp]
    omega

theorem mem_places {D : Dom K} (hp : D.Proper) (es : List ℕ) (p : K × K) :
    p ∈ places D (unique D [] es) ↔ D.Loose (fun e => e ∈ es) p := by
  obtain ⟨h1, h2, h3⟩ := unique_spec D es [] List.Pairwise.nil
  set u := unique D [] es
  have hnd : u.Nodup := h1.imp fun h hh => h (by rw [hh])
  have inj : ∀ e ∈ u, ∀ f ∈ u, D.mid e = D.mid f → e = f := by
    intro e he f hf hef
    exact List.inj_on_of_nodup_map (f := D.mid) (List.pairwise_map.mpr h1) he hf hef
  have hmem : p ∈ places D u ↔ times D u p = 1 ∧ D.onBoundary p = false := by
    unfold places
    rw [List.mem_filter, decide_eq_true_eq]
    refine ⟨fun h => h.2, fun h => ⟨?_, h⟩⟩
    rw [← List.count_pos_iff, ← times_count, h.1]
    omega
  rw [hmem, times_eq hp, countP_one hnd, ← Bool.not_eq_true, onBoundary_iff]
  unfold Dom.Loose
  have hq : ∀ e, (decide (D.vert (ends e).1 = p) || decide (D.vert (ends e).2 = p)) = true ↔ D.End e p := by
    intro e
    rw [Bool.or_eq_true, decide_eq_true_eq, decide_eq_true_eq]
    rfl
  simp only [hq]
  rw [and_comm]
  refine and_congr_right fun _ => ?_
  constructor
  · rintro ⟨e, e1, e2, e3⟩
    refine ⟨e, by simpa using h2 e e1, e2, fun f hf hfp => ?_⟩
    obtain ⟨g, g1, g2⟩ := h3 f (Or.inr hf)
    have hg : g = e := e3 g g1 (hp.2 f g g2.symm p hfp)
    rw [← g2, hg]
  · rintro ⟨e, e1, e2, e3⟩
    obtain ⟨g, g1, g2⟩ := h3 e (Or.inr e1)
    have hes : ∀ f ∈ u, f ∈ es := fun f hf => by simpa using h2 f hf
    exact ⟨g, g1, hp.2 e g g2.symm p e2, fun f hf hfp => inj f hf g g1 ((e3 f (hes f hf) hfp).trans g2.symm)⟩

/-- At most two loose ends are counted. -/
theorem loose_iff {D : Dom K} (hp : D.Proper) (es : List ℕ) :
    loose D (unique D [] es) ≤ 2 ↔ ¬ ∃ p q r, p ≠ q ∧ p ≠ r ∧ q ≠ r ∧ D.Loose (fun e => e ∈ es) p ∧ D.Loose (fun e => e ∈ es) q ∧ D.Loose (fun e => e ∈ es) r := by
  rw [loose_eq, two_at_most (places_nodup D _)]
  simp only [mem_places hp]

end Verif.Wall
