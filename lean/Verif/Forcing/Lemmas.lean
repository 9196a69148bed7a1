import Verif.Forcing.Spec
import Verif.Loop.Props
import Mathlib.Tactic.Linarith
import Mathlib.Tactic.Ring
import Mathlib.Tactic.FieldSimp

/-!
# Lemmas on forcing terms
-/

namespace Verif.Forcing

open Verif.Polygon (Pt)

theorem area_size (M : Loop.Mesh ℝ) (k : ℕ) : area M k = size M k := by
  unfold area size Polygon.twoTri
  ring

theorem inside_iff (B : List (Pt ℝ)) (p : Pt ℝ) : inside B p = true ↔ Within B p := by
  unfold inside Within
  exact beq_iff_eq

theorem modify_get (l : List ℕ) (x : ℝ) (hl : l.Nodup) :
    ∀ u : List ℝ, (l.foldl (fun u k => u.modify k (· + x)) u).length = u.length ∧
      ∀ k, (h : k < u.length) → (h' : k < (l.foldl (fun u k => u.modify k (· + x)) u).length) →
        (l.foldl (fun u k => u.modify k (· + x)) u)[k] = u[k] + if k ∈ l then x else 0 := by
  induction l with
  | nil => intro u; exact ⟨rfl, fun k h h' => by simp⟩
  | cons a l ih =>
    intro u
    obtain ⟨ha, hl⟩ := List.nodup_cons.mp hl
    obtain ⟨h1, h2⟩ := ih hl (u.modify a (· + x))
    simp only [List.foldl_cons]
    refine ⟨by rw [h1, List.length_modify], fun k h h' => ?_⟩
    rw [h2 k (by rw [List.length_modify]; exact h) h', List.getElem_modify]
    by_cases hk : a = k
    · subst hk
      simp [ha]
    · simp [hk, Ne.symm hk]

/-- What the term acts on, in terms of the place. -/
theorem indices_place (M : Loop.Mesh ℝ) {A : Place} {c r p} (hA : A.Args c r p) :
    (indices M c r p = none ∧ A = .everywhere) ∨
      ∃ l, indices M c r p = some l ∧ l.Nodup ∧ (∀ k, k ∈ l ↔ A.Has M k) ∧ A ≠ .everywhere := by
  cases A with
  | everywhere =>
    obtain ⟨rfl, rfl, rfl⟩ := hA
    exact Or.inl ⟨rfl, rfl⟩
  | circle a b =>
    obtain ⟨rfl, rfl, rfl⟩ := hA
    refine Or.inr ⟨_, rfl, List.nodup_range.filter _, fun k => ?_, by simp⟩
    rw [List.mem_filter, List.mem_range, decide_eq_true_eq]
    rfl
  | polygon P =>
    obtain ⟨rfl, rfl, rfl⟩ := hA
    obtain ⟨h1, h2⟩ := Polygon.C17_inside Real.sqrt true ((List.range M.n).map (centroid M)) P
    refine Or.inr ⟨_, rfl, h1.imp (fun h => ne_of_lt h), fun k => ?_, by simp⟩
    rw [h2]
    constructor
    · rintro ⟨h, h3⟩
      have h4 : k < M.n := by simpa using h
      refine ⟨h4, ?_⟩
      rw [List.getElem_map, List.getElem_range] at h3
      exact h3
    · rintro ⟨h, h3⟩
      refine ⟨by simpa using h, ?_⟩
      rw [List.getElem_map, List.getElem_range]
      exact h3

theorem foldl_area (M : Loop.Mesh ℝ) (l : List ℕ) (s : ℝ) : l.foldl (fun s k => s + area M k) s = s + (l.map (size M)).sum := by
  induction l generalizing s with
  | nil => simp
  | cons a l ih => rw [List.foldl_cons, ih, area_size, List.map_cons, List.sum_cons]; ring

theorem tris_sum (M : Loop.Mesh ℝ) {A : Place} {l : List ℕ} (hl : l.Nodup) (hm : ∀ k, k ∈ l ↔ A.Has M k) : (l.map (size M)).sum = ∑ k ∈ A.tris M, size M k := by
  classical
  rw [← List.sum_toFinset _ hl]
  apply Finset.sum_congr _ fun _ _ => rfl
  ext k
  rw [List.mem_toFinset, hm]
  unfold Place.tris
  rw [Finset.mem_filter, Finset.mem_range]
  refine ⟨fun h => ⟨?_, h⟩, fun h => h.2⟩
  cases A with
  | everywhere => exact h
  | circle c r => exact h.1
  | polygon P => exact h.1

theorem ccw_size {M : Loop.Mesh ℝ} (hc : M.Ccw) {k : ℕ} (hk : k < M.n) : 0 < size M k := by
  have := hc k hk
  unfold size
  linarith

theorem has_lt {M : Loop.Mesh ℝ} {A : Place} {k : ℕ} (h : A.Has M k) : k < M.n := by
  cases A with
  | everywhere => exact h
  | circle c r => exact h.1
  | polygon P => exact h.1

/-- What a successful construction gives. -/
theorem build_ok {M : Loop.Mesh ℝ} {B : List (Pt ℝ)} {A : Place} {c r p} (hA : A.Args c r p) {b} (h : build M B c r p = .ok b) :
    (A = .everywhere ∧ b = (none, Polygon.polygonArea B) ∧ 0 < Polygon.polygonArea B) ∨
      (∃ l : List ℕ, b = (some l, ∑ k ∈ A.tris M, size M k) ∧ l.Nodup ∧ (∀ k, k ∈ l ↔ A.Has M k) ∧ A ≠ .everywhere ∧ 0 < ∑ k ∈ A.tris M, size M k) := by
  unfold build at h
  rcases indices_place M hA with ⟨h1, h2⟩ | ⟨l, h1, h2, h3, h4⟩
  · left
    simp only [h1] at h
    split_ifs at h with g1 g2 g3 g4 g5 g6
    exact ⟨h2, by cases h; rfl, g6⟩
  · right
    simp only [h1, foldl_area, zero_add, tris_sum M h2 h3] at h
    split_ifs at h with g1 g2 g3 g4 g5 g6 g7
    exact ⟨l, by cases h; rfl, h2, h3, h4, g7⟩

/-- The effect on the update vector. -/
theorem apply_raised {M : Loop.Mesh ℝ} {B : List (Pt ℝ)} {A : Place} {c r p} (hA : A.Args c r p) {b} (h : build M B c r p = .ok b) (x : ℝ) (u : List ℝ)
    (hu : u.length = M.n) : Raised M A u (apply b.1 x u) x := by
  classical
  rcases build_ok hA h with ⟨h1, h2, -⟩ | ⟨l, h1, h2, h3, -, -⟩
  · subst h1
    rw [h2]
    refine ⟨by simp [apply], fun k hk hk' => ?_⟩
    have : Place.Has M .everywhere k := (hu ▸ hk : k < M.n)
    rw [if_pos this]
    simp [apply]
  · rw [h1]
    obtain ⟨g1, g2⟩ := modify_get l x h2 u
    refine ⟨g1, fun k hk hk' => ?_⟩
    rw [show (apply (some l, ∑ k ∈ A.tris M, size M k).1 x u)[k] = _ from g2 k hk hk']
    congr 1
    by_cases g : k ∈ l
    · rw [if_pos g, if_pos ((h3 k).mp g)]
    · rw [if_neg g, if_neg (fun g' => g ((h3 k).mpr g'))]

/-- Volume of a uniform rise. -/
theorem volume_raised {M : Loop.Mesh ℝ} {A : Place} {u u' : List ℝ} {x : ℝ} (hu : u.length = M.n) (h : Raised M A u u' x) :
    volume M u u' = (∑ k ∈ A.tris M, size M k) * x := by
  classical
  unfold volume Place.tris
  rw [Finset.sum_filter, Finset.sum_mul]
  apply Finset.sum_congr rfl
  intro k hk
  rw [Finset.mem_range] at hk
  have h1 : k < u.length := by omega
  have h2 : k < u'.length := by rw [h.1]; exact h1
  rw [List.getD_eq_getElem _ _ h1, List.getD_eq_getElem _ _ h2, h.2 k h1 h2]
  split_ifs <;> ring

theorem tris_everywhere (M : Loop.Mesh ℝ) : ∑ k ∈ Place.tris M .everywhere, size M k = M.area := by
  classical
  unfold Place.tris Loop.Mesh.area size
  apply Finset.sum_congr _ fun _ _ => rfl
  ext k
  rw [Finset.mem_filter, Finset.mem_range]
  exact ⟨fun h => h.1, fun h => ⟨h, h⟩⟩

end Verif.Forcing
