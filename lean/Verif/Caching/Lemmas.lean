import Verif.Caching.Model

/-! # Lemmas on caching -/

namespace Verif.Caching

set_option linter.unusedSectionVars false

variable {A K : Type} [DecidableEq A] [Field K] [DecidableEq K]
variable {H : Type} [DecidableEq H]
variable {C R W : Type} [DecidableEq C]

mutual

theorem compare_refl : ∀ v : Val A K, compare v v = true
  | .atom a => by simp [compare]
  | .tuple l => by simpa [compare] using compareAll_refl l
  | .list l => by simpa [compare] using compareAll_refl l
  | .dict l => by simp [compare]
  | .array d => by simp [compare, sameArray]

theorem compareAll_refl : ∀ l : Vals A K, compareAll l l = true
  | .nil => by simp [compareAll]
  | .cons v l => by simp [compareAll, compare_refl v, compareAll_refl l]

end

mutual

/-- Values without dictionaries and arrays. -/
def Val.Plain : Val A K → Prop
  | .atom _ => True
  | .tuple l => l.Plain
  | .list l => l.Plain
  | .dict _ => False
  | .array _ => False

/-- Lists of such values. -/
def Vals.Plain : Vals A K → Prop
  | .nil => True
  | .cons v l => v.Plain ∧ l.Plain

end

mutual

theorem compare_plain : ∀ a b : Val A K, a.Plain → compare a b = true → a = b
  | .atom a, .atom b, _, h => by simpa [compare] using h
  | .tuple a, .tuple b, hp, h => by rw [compareAll_plain a b hp (by simpa [compare] using h)]
  | .list a, .list b, hp, h => by rw [compareAll_plain a b hp (by simpa [compare] using h)]
  | .dict _, _, hp, _ => hp.elim
  | .array _, _, hp, _ => hp.elim
  | .atom _, .tuple _, _, h | .atom _, .list _, _, h | .atom _, .dict _, _, h | .atom _, .array _, _, h => by simp [compare] at h
  | .tuple _, .atom _, _, h | .tuple _, .list _, _, h | .tuple _, .dict _, _, h | .tuple _, .array _, _, h => by simp [compare] at h
  | .list _, .tuple _, _, h | .list _, .atom _, _, h | .list _, .dict _, _, h | .list _, .array _, _, h => by simp [compare] at h

theorem compareAll_plain : ∀ a b : Vals A K, a.Plain → compareAll a b = true → a = b
  | .nil, .nil, _, _ => rfl
  | .nil, .cons _ _, _, h => by simp [compareAll] at h
  | .cons _ _, .nil, _, h => by simp [compareAll] at h
  | .cons a l, .cons b m, hp, h => by
    simp only [compareAll, Bool.and_eq_true] at h
    rw [compare_plain a b hp.1 h.1, compareAll_plain l m hp.2 h.2]

end

theorem depstats_length (stat : String → A × A) (path : String → A) (ps : List String) :
    (depstats stat path ps : Vals A K).length = ps.length := by
  induction ps with
  | nil => rfl
  | cons p ps ih => simp [depstats, Vals.length, ih]

/-- A result found is in a complete slot with matching arguments and code. -/
theorem lookup_some {code : C} {a : Args A K} {given : Bool} {deps : Val A K} {k k' : ℕ} {l : List (Slot A K C R)} {t : R}
    (h : lookup code a given deps k l = (k', some t)) : ∃ s ∈ l, ∃ b d, s.result = .good t ∧ s.args = .good b ∧ s.admin = .good (d, code) ∧
      compare b.args a.args = true ∧ compare b.kwargs a.kwargs = true ∧ (given = true → compare d deps = true) := by
  induction l generalizing k with
  | nil => simp [lookup] at h
  | cons s rest ih =>
    obtain ⟨r, b, ad⟩ := s
    cases r with
    | absent => simp [lookup] at h
    | bad =>
      cases b with
      | absent => simp [lookup] at h
      | bad => cases ad <;> simp [lookup] at h
      | good b =>
        cases ad with
        | absent => simp [lookup] at h
        | bad => simp [lookup] at h
        | good d =>
          obtain ⟨d, c⟩ := d
          simp only [lookup] at h
          split_ifs at h with h1 h2
          · simp at h
          · simp at h
          · obtain ⟨s, hs, h'⟩ := ih h
            exact ⟨s, List.mem_cons_of_mem _ hs, h'⟩
    | good r =>
      cases b with
      | absent => simp [lookup] at h
      | bad => cases ad <;> simp [lookup] at h
      | good b =>
        cases ad with
        | absent => simp [lookup] at h
        | bad => simp [lookup] at h
        | good d =>
          obtain ⟨d, c⟩ := d
          simp only [lookup] at h
          split_ifs at h with h1 h2
          · simp at h
          · simp only [Prod.mk.injEq, Option.some.injEq] at h
            obtain ⟨-, rfl⟩ := h
            simp only [Bool.and_eq_true, decide_eq_true_eq] at h2
            obtain ⟨⟨h3, h4⟩, rfl⟩ := h2
            refine ⟨_, List.mem_cons_self, b, d, rfl, rfl, rfl, h3, h4, fun hg => ?_⟩
            rw [hg] at h1
            simpa using h1
          · obtain ⟨s, hs, h'⟩ := ih h
            exact ⟨s, List.mem_cons_of_mem _ hs, h'⟩

/-- The slots after a change. -/
theorem mem_modify {f : Slot A K C R → Slot A K C R} {k : ℕ} {l : List (Slot A K C R)} {s : Slot A K C R} (h : s ∈ modify f k l) :
    s ∈ l ∨ s = {} ∨ ∃ s0, (s0 ∈ l ∨ s0 = {}) ∧ s = f s0 := by
  induction l generalizing k with
  | nil =>
    induction k with
    | zero =>
      simp only [modify, List.mem_singleton] at h
      exact Or.inr (Or.inr ⟨{}, Or.inr rfl, h⟩)
    | succ k ih =>
      simp only [modify, List.mem_cons] at h
      rcases h with h | h
      · exact Or.inr (Or.inl h)
      · exact ih h
  | cons s1 l ih =>
    cases k with
    | zero =>
      simp only [modify, List.mem_cons] at h
      rcases h with h | h
      · exact Or.inr (Or.inr ⟨s1, Or.inl (by simp), h⟩)
      · exact Or.inl (by simp [h])
    | succ k =>
      simp only [modify, List.mem_cons] at h
      rcases h with h | h
      · exact Or.inl (by simp [h])
      · rcases ih h with h | h | ⟨s0, h0, h⟩
        · exact Or.inl (by simp [h])
        · exact Or.inr (Or.inl h)
        · refine Or.inr (Or.inr ⟨s0, ?_, h⟩)
          rcases h0 with h0 | h0
          · exact Or.inl (by simp [h0])
          · exact Or.inr h0

theorem modify_modify (f g : Slot A K C R → Slot A K C R) (k : ℕ) (l : List (Slot A K C R)) :
    modify g k (modify f k l) = modify (fun s => g (f s)) k l := by
  induction k generalizing l with
  | zero => cases l <;> rfl
  | succ k ih => cases l <;> simp [modify, ih]

end Verif.Caching
