import Verif.Damage.Lemmas
import Mathlib.Data.List.Sublists

set_option linter.unusedSectionVars false

/-! # Lemmas about collapse -/

namespace Verif.Damage

variable {K : Type} [Field K] [LinearOrder K]

theorem draw_spec (rnd : ℕ → ℕ) (n : ℕ) (l : List ℕ) (hn : n ≤ l.length) (hl : l.Nodup) :
    ∃ is, draw rnd n l = some is ∧ is.length = n ∧ is.Nodup ∧ ∀ i ∈ is, i ∈ l := by
  induction n generalizing rnd l with
  | zero => exact ⟨[], rfl, rfl, List.nodup_nil, by simp⟩
  | succ n ih =>
    have hlt : rnd 0 % l.length < l.length := Nat.mod_lt _ (by omega)
    set i := l[rnd 0 % l.length] with hi
    have him : i ∈ l := List.getElem_mem hlt
    obtain ⟨is, h1, h2, h3, h4⟩ := ih (fun k => rnd (k + 1)) (l.erase i) (by rw [List.length_erase_of_mem him]; omega) (hl.erase i)
    refine ⟨i :: is, ?_, by simp [h2], ?_, ?_⟩
    · rw [draw, List.getElem?_eq_getElem hlt]
      simp only [← hi, h1, Option.map_some]
    · rw [List.nodup_cons]
      refine ⟨fun h => ?_, h3⟩
      have := h4 i h
      rw [hl.mem_erase_iff] at this
      exact this.1 rfl
    · intro j hj
      rcases List.mem_cons.mp hj with rfl | hj
      · exact him
      · exact List.mem_of_mem_erase (h4 j hj)

/-! ## Classes -/

/-- What the dictionary holds after `n` houses: `P` is the probability of a house. -/
structure Sorted (P : ℕ → Option K) (n : ℕ) (d : List (K × List ℕ)) : Prop where
  keys : (d.map Prod.fst).Nodup
  lists : ∀ e ∈ d, e.2 = (List.range n).filter fun i => decide (P i = some e.1)
  all : ∀ i < n, ∀ p, P i = some p → p ∈ d.map Prod.fst

theorem enter_keys (p : K) (i : ℕ) (d : List (K × List ℕ)) (q : K) : q ∈ (enter p i d).map Prod.fst ↔ q = p ∨ q ∈ d.map Prod.fst := by
  induction d with
  | nil => simp [enter]
  | cons e d ih =>
    obtain ⟨r, l⟩ := e
    rw [enter]
    by_cases h : r = p
    · rw [if_pos h]; subst h; simp
    · rw [if_neg h, List.map_cons, List.mem_cons, ih, List.map_cons, List.mem_cons]
      constructor
      · rintro (h | h | h)
        · exact Or.inr (Or.inl h)
        · exact Or.inl h
        · exact Or.inr (Or.inr h)
      · rintro (h | h | h)
        · exact Or.inr (Or.inl h)
        · exact Or.inl h
        · exact Or.inr (Or.inr h)

theorem enter_nodup (p : K) (i : ℕ) (d : List (K × List ℕ)) (h : (d.map Prod.fst).Nodup) : ((enter p i d).map Prod.fst).Nodup := by
  induction d with
  | nil => simp [enter]
  | cons e d ih =>
    obtain ⟨r, l⟩ := e
    rw [enter]
    rw [List.map_cons, List.nodup_cons] at h
    by_cases hr : r = p
    · rw [if_pos hr, List.map_cons, List.nodup_cons]; exact h
    · rw [if_neg hr, List.map_cons, List.nodup_cons, enter_keys]
      exact ⟨fun h' => h'.elim hr h.1, ih h.2⟩

theorem enter_mem (p : K) (i : ℕ) (d : List (K × List ℕ)) (h : (d.map Prod.fst).Nodup) (e : K × List ℕ) (he : e ∈ enter p i d) :
    (e.1 ≠ p ∧ e ∈ d) ∨ (e.1 = p ∧ ∃ l, (p, l) ∈ d ∧ e.2 = l ++ [i]) ∨ (e = (p, [i]) ∧ p ∉ d.map Prod.fst) := by
  induction d with
  | nil =>
    rw [enter, List.mem_singleton] at he
    exact Or.inr (Or.inr ⟨he, by simp⟩)
  | cons f d ih =>
    obtain ⟨r, l⟩ := f
    rw [enter] at he
    rw [List.map_cons, List.nodup_cons] at h
    by_cases hr : r = p
    · rw [if_pos hr] at he
      rcases List.mem_cons.mp he with rfl | he
      · exact Or.inr (Or.inl ⟨hr, l, by rw [hr]; exact List.mem_cons_self, rfl⟩)
      · refine Or.inl ⟨fun h' => h.1 ?_, List.mem_cons_of_mem _ he⟩
        have : e.1 = r := h'.trans hr.symm
        simp only
        rw [← this]
        exact List.mem_map_of_mem he
    · rw [if_neg hr] at he
      rcases List.mem_cons.mp he with rfl | he
      · exact Or.inl ⟨hr, List.mem_cons_self⟩
      · rcases ih h.2 he with ⟨h1, h2⟩ | ⟨h1, l', h2, h3⟩ | ⟨h1, h2⟩
        · exact Or.inl ⟨h1, List.mem_cons_of_mem _ h2⟩
        · exact Or.inr (Or.inl ⟨h1, l', List.mem_cons_of_mem _ h2, h3⟩)
        · refine Or.inr (Or.inr ⟨h1, fun h' => ?_⟩)
          rw [List.map_cons, List.mem_cons] at h'
          rcases h' with h' | h'
          · exact hr h'.symm
          · exact h2 h'

theorem sorted_enter {P : ℕ → Option K} {n : ℕ} {d : List (K × List ℕ)} (h : Sorted P n d) {p : K} (hp : P n = some p) :
    Sorted P (n + 1) (enter p n d) where
  keys := enter_nodup p n d h.keys
  lists := by
    intro e he
    rw [List.range_succ, List.filter_append]
    rcases enter_mem p n d h.keys e he with ⟨h1, h2⟩ | ⟨h1, l, h2, h3⟩ | ⟨rfl, h2⟩
    · rw [h.lists e h2, List.filter_singleton]
      have : ¬ P n = some e.1 := by rw [hp]; intro h'; injection h' with h'; exact h1 h'.symm
      simp [this]
    · have h4 : l = (List.range n).filter fun i => decide (P i = some p) := h.lists _ h2
      rw [h3, h1, List.filter_singleton, ← h4]
      simp [hp]
    · have : (List.range n).filter (fun i => decide (P i = some p)) = [] := by
        rw [List.filter_eq_nil_iff]
        intro i hi h'
        exact h2 (h.all i (List.mem_range.mp hi) p (by simpa using h'))
      simp only [this, List.filter_singleton, hp]
      simp
  all := by
    intro i hi q hq
    rw [enter_keys]
    rcases Nat.lt_succ_iff_lt_or_eq.mp hi with h' | rfl
    · exact Or.inr (h.all i h' q hq)
    · rw [hp] at hq; injection hq with hq; exact Or.inl hq.symm

theorem sorted_skip {P : ℕ → Option K} {n : ℕ} {d : List (K × List ℕ)} (h : Sorted P n d) (hp : P n = none) : Sorted P (n + 1) d where
  keys := h.keys
  lists := by
    intro e he
    rw [List.range_succ, List.filter_append, h.lists e he, List.filter_singleton, hp]
    simp
  all := by
    intro i hi q hq
    rcases Nat.lt_succ_iff_lt_or_eq.mp hi with h' | rfl
    · exact h.all i h' q hq
    · rw [hp] at hq; cases hq

/-- Probability of house `i`. -/
def prob (hs : List (House K)) (i : ℕ) : Option K := hs[i]?.bind probability

theorem classes_sorted (hs : List (House K)) : Sorted (prob hs) hs.length (classes hs) := by
  unfold classes
  suffices h : ∀ (l a : List (House K)) (d : List (K × List ℕ)), hs = a ++ l → Sorted (prob hs) a.length d →
      Sorted (prob hs) hs.length ((l.zipIdx a.length).foldl (fun d h => match probability h.1 with
        | none => d
        | some p => enter p h.2 d) d) by
    exact h hs [] [] rfl ⟨by simp, by simp, by simp⟩
  intro l
  induction l with
  | nil =>
    intro a d e hd
    rw [List.append_nil] at e
    rw [e] at hd ⊢
    simpa using hd
  | cons x l ih =>
    intro a d e hd
    have hx : prob hs a.length = probability x := by
      unfold prob
      rw [e, List.getElem?_append_right (le_refl _)]
      simp
    rw [List.zipIdx_cons, List.foldl_cons]
    have := ih (a ++ [x]) (match probability x with
        | none => d
        | some p => enter p a.length d) (by rw [e]; simp) (by
          rw [List.length_append, List.length_singleton]
          cases h : probability x with
          | none => exact sorted_skip hd (by rw [hx, h])
          | some p => exact sorted_enter hd (by rw [hx, h]))
    rw [List.length_append, List.length_singleton] at this
    exact this

/-! ## Rounding -/

variable [IsStrictOrderedRing K] [FloorRing K]

theorem roundEven_nearest (x : K) : Nearest x (roundEven x) := by
  have h0 : (0 : K) ≤ x - ⌊x⌋ := by linarith [Int.floor_le x]
  have h1 : x - ⌊x⌋ < 1 := by linarith [Int.lt_floor_add_one x]
  unfold roundEven Nearest
  by_cases a : x - ⌊x⌋ < 1 / 2
  · rw [if_pos a, abs_of_nonneg h0]
    exact ⟨a.le, fun h => absurd h a.ne⟩
  · rw [if_neg a]
    by_cases b : 1 / 2 < x - ⌊x⌋
    · rw [if_pos b]
      push_cast
      rw [abs_of_nonpos (by linarith)]
      exact ⟨by linarith, fun h => absurd h (by intro h; linarith)⟩
    · rw [if_neg b]
      have c : x - ⌊x⌋ = 1 / 2 := le_antisymm (not_lt.mp b) (not_lt.mp a)
      by_cases e : ⌊x⌋ % 2 = 0
      · rw [if_pos e, abs_of_nonneg h0]
        exact ⟨c.le, fun _ => Int.even_iff.mpr e⟩
      · rw [if_neg e]
        push_cast
        rw [abs_of_nonpos (by linarith)]
        exact ⟨by linarith, fun _ => Int.even_iff.mpr (by omega)⟩

theorem roundEven_bounds (n : ℕ) (p : K) (h0 : 0 ≤ p) (h1 : p ≤ 1) : 0 ≤ roundEven ((n : K) * p) ∧ roundEven ((n : K) * p) ≤ n := by
  obtain ⟨h, -⟩ := roundEven_nearest ((n : K) * p)
  rw [abs_le] at h
  have hn : (0 : K) ≤ n := Nat.cast_nonneg n
  have a : 0 ≤ (n : K) * p := mul_nonneg hn h0
  have b : (n : K) * p ≤ n := by nlinarith
  constructor
  · by_contra c
    have : roundEven ((n : K) * p) ≤ -1 := by omega
    have : ((roundEven ((n : K) * p) : ℤ) : K) ≤ -1 := by exact_mod_cast this
    linarith
  · by_contra c
    have : (n : ℤ) + 1 ≤ roundEven ((n : K) * p) := by omega
    have : (n : K) + 1 ≤ ((roundEven ((n : K) * p) : ℤ) : K) := by exact_mod_cast this
    linarith

theorem nearest_unique (x : K) (m n : ℤ) (hm : Nearest x m) (hn : Nearest x n) : m = n := by
  have a := abs_le.mp hm.1
  have b := abs_le.mp hn.1
  rcases lt_trichotomy m n with h | h | h
  · have h' : (m : K) + 1 ≤ n := by exact_mod_cast h
    have e1 : x - m = 1 / 2 := by linarith
    have e2 : x - n = -(1 / 2) := by linarith
    have h3 : (n : K) = m + 1 := by linarith
    have h4 : n = m + 1 := by exact_mod_cast h3
    have p1 := hm.2 (by rw [e1]; exact abs_of_nonneg (by norm_num))
    have p2 := hn.2 (by rw [e2, abs_neg]; exact abs_of_nonneg (by norm_num))
    rw [Int.even_iff] at p1 p2
    omega
  · exact h
  · have h' : (n : K) + 1 ≤ m := by exact_mod_cast h
    have e1 : x - n = 1 / 2 := by linarith
    have e2 : x - m = -(1 / 2) := by linarith
    have h3 : (m : K) = n + 1 := by linarith
    have h4 : m = n + 1 := by exact_mod_cast h3
    have p1 := hn.2 (by rw [e1]; exact abs_of_nonneg (by norm_num))
    have p2 := hm.2 (by rw [e2, abs_neg]; exact abs_of_nonneg (by norm_num))
    rw [Int.even_iff] at p1 p2
    omega

/-! ## Collapse -/

theorem find_map {α : Type} (x : α) (l : List ℕ) (i : ℕ) :
    (l.map fun i => (i, x)).find? (fun e => e.1 == i) = if i ∈ l then some (i, x) else none := by
  induction l with
  | nil => simp
  | cons a l ih =>
    rw [List.map_cons, List.find?_cons]
    by_cases h : a = i
    · subst h; simp
    · have : (a == i) = false := by simpa using h
      simp only [this, ih, List.mem_cons]
      by_cases hi : i ∈ l
      · simp [hi]
      · have : ¬ (i = a ∨ i ∈ l) := by rintro (h' | h'); exacts [h h'.symm, hi h']
        rw [if_neg hi, if_neg this]

theorem collapse_spec (rnd : ℕ → ℕ) (d : List (K × List ℕ)) (hp : ∀ e ∈ d, 0 ≤ e.1 ∧ e.1 ≤ 1) (hl : ∀ e ∈ d, e.2.Nodup)
    (hd : d.Pairwise fun e f => ∀ i ∈ e.2, i ∉ f.2) :
    ∃ is info, collapse rnd d = some (is, info) ∧ is.Nodup ∧ (∀ i ∈ is, ∃ e ∈ d, i ∈ e.2) ∧
      (∀ e ∈ d, ((is.filter fun i => decide (i ∈ e.2)).length : ℤ) = roundEven ((e.2.length : K) * e.1)) ∧
      (∀ e ∈ d, ∀ i ∈ e.2, info.find? (fun x => x.1 == i) = some (i, e.1, roundEven ((e.2.length : K) * e.1), e.2.length)) ∧
      ∀ i, (∀ e ∈ d, i ∉ e.2) → info.find? (fun x => x.1 == i) = none := by
  induction d generalizing rnd with
  | nil => exact ⟨[], [], rfl, List.nodup_nil, by simp, by simp, by simp, by simp⟩
  | cons e d ih =>
    obtain ⟨p, l⟩ := e
    obtain ⟨hd1, hd2⟩ := List.pairwise_cons.mp hd
    obtain ⟨hp0, hp1⟩ := hp _ List.mem_cons_self
    have hln := hl _ List.mem_cons_self
    simp only at hp0 hp1 hln hd1
    obtain ⟨hb0, hb1⟩ := roundEven_bounds l.length p hp0 hp1
    set n := roundEven ((l.length : K) * p) with hn
    obtain ⟨js, j1, j2, j3, j4⟩ := draw_spec rnd n.toNat l (by omega) hln
    obtain ⟨is, info, i1, i2, i3, i4, i5, i6⟩ := ih (fun k => rnd (k + n.toNat)) (fun e he => hp e (List.mem_cons_of_mem _ he))
      (fun e he => hl e (List.mem_cons_of_mem _ he)) hd2
    have hdis : ∀ i ∈ is, i ∉ l := by
      intro i hi h
      obtain ⟨e, he, h'⟩ := i3 i hi
      exact hd1 e he i h h'
    have hfl : ∀ i, (l.map fun i => (i, p, n, l.length)).find? (fun x => x.1 == i) = if i ∈ l then some (i, p, n, l.length) else none :=
      find_map _ l
    refine ⟨js ++ is, l.map (fun i => (i, p, n, l.length)) ++ info, ?_, ?_, ?_, ?_, ?_, ?_⟩
    · rw [collapse, ← hn]
      simp only [j1, i1, Option.map_some]
    · rw [List.nodup_append]
      refine ⟨j3, i2, ?_⟩
      rintro a ha b hb rfl
      exact hdis a hb (j4 a ha)
    · intro i hi
      rcases List.mem_append.mp hi with h | h
      · exact ⟨_, List.mem_cons_self, j4 i h⟩
      · obtain ⟨e, he, h'⟩ := i3 i h
        exact ⟨e, List.mem_cons_of_mem _ he, h'⟩
    · intro e he
      rw [List.filter_append, List.length_append]
      rcases List.mem_cons.mp he with rfl | he
      · rw [List.filter_eq_self.mpr (by simpa using j4), List.filter_eq_nil_iff.mpr (by simpa using hdis), j2]
        simp only [List.length_nil]
        rw [← hn]
        omega
      · have : ∀ j ∈ js, ¬ (j ∈ e.2) := fun j hj h => hd1 e he j (j4 j hj) h
        rw [List.filter_eq_nil_iff.mpr (by simpa using this), List.length_nil, Nat.zero_add]
        exact i4 e he
    · intro e he i hi
      rw [List.find?_append, hfl]
      rcases List.mem_cons.mp he with rfl | he
      · rw [if_pos hi]; rfl
      · have : i ∉ l := fun h => hd1 e he i h hi
        rw [if_neg this, Option.none_or]
        exact i5 e he i hi
    · intro i hi
      rw [List.find?_append, hfl, if_neg (hi _ List.mem_cons_self), Option.none_or]
      exact i6 i fun e he => hi e (List.mem_cons_of_mem _ he)

end Verif.Damage
