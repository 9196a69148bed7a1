import Verif.Gen.PropsTags
import Mathlib.Tactic.IntervalCases

/-! A faithful generator for a square of two triangles, with one tagged segment inside. -/

namespace Verif.Gen

open Verif.Mesh (DirEdge Across Conforming)

def trisEx : List Mesh.Tri := [(0, 1, 2), (2, 3, 0)]

/-- Tags of the outline: two sides with tags, two without, and a tagged segment inside. -/
def tagsEx : List String := ["wall", "", "sea", "", "dam"]

def segsEx : List (ℕ × ℕ) := [(0, 1), (1, 2), (2, 3), (3, 0), (0, 2)]

/-- The markers are the codes, or one on the boundary. -/
def markersEx : List ℕ := [5, 1, 4, 1, 3]

/-- Each output segment is the whole of its segment. -/
def originEx (j : ℕ) : Option ℕ := if j < 5 then some j else none

theorem codesEx : (segCodes tagsEx initialConversions).codes = [some 5, some 0, some 4, some 0, some 3] := by decide +kernel

theorem dirEdge_ex (k e a b : ℕ) : DirEdge trisEx k e a b ↔ (k, e, a, b) ∈ [(0, 0, 1, 2), (0, 1, 2, 0), (0, 2, 0, 1), (1, 0, 3, 0), (1, 1, 0, 2),
    (1, 2, 2, 3)] := by
  unfold DirEdge trisEx
  match k with
  | 0 => simp
  | 1 => simp
  | k + 2 => simp

theorem faithfulEx : Faithful (segCodes tagsEx initialConversions).codes trisEx segsEx markersEx originEx := by
  rw [codesEx]
  have hacross : ∀ k e, (∃ l f, Across trisEx k e l f) ↔ (k, e) ∈ [(0, 1), (1, 1)] := by
    intro k e
    unfold Across
    simp only [dirEdge_ex]
    simp only [List.mem_cons, List.not_mem_nil, or_false, Prod.mk.injEq]
    constructor
    · rintro ⟨l, f, a, b, h1, h2⟩
      omega
    · rintro (⟨rfl, rfl⟩ | ⟨rfl, rfl⟩)
      · exact ⟨1, 1, 2, 0, by omega, by omega⟩
      · exact ⟨0, 1, 0, 2, by omega, by omega⟩
  have hseg : ∀ (j : ℕ) s, segsEx[j]? = some s ↔ (j, s) ∈ [(0, (0, 1)), (1, (1, 2)), (2, (2, 3)), (3, (3, 0)), (4, (0, 2))] := by
    intro j s
    unfold segsEx
    match j with
    | 0 => simp [eq_comm]
    | 1 => simp [eq_comm]
    | 2 => simp [eq_comm]
    | 3 => simp [eq_comm]
    | 4 => simp [eq_comm]
    | j + 5 => simp
  refine ⟨?_, rfl, ?_, ?_, ?_, ?_⟩
  · intro k e k' e' a b h h'
    rw [dirEdge_ex] at h h'
    simp only [List.mem_cons, List.not_mem_nil, or_false, Prod.mk.injEq] at h h'
    omega
  · intro j i h
    unfold originEx at h
    split at h
    · simp only [Option.some.injEq] at h
      simp only [List.length_cons, List.length_nil]
      omega
    · simp at h
  · intro j j' s s' k e h h' hon hon'
    rw [hseg] at h h'
    unfold On at hon hon'
    rw [dirEdge_ex, dirEdge_ex] at hon hon'
    obtain ⟨a, b⟩ := s
    obtain ⟨a', b'⟩ := s'
    simp only [List.mem_cons, List.not_mem_nil, or_false, Prod.mk.injEq] at h h' hon hon'
    omega
  · intro j i c hj ho hc hne
    simp only [segsEx, List.length_cons, List.length_nil] at hj
    have e : originEx j = some j := if_pos hj
    rw [e, Option.some.injEq] at ho
    subst ho
    clear e
    interval_cases j
    all_goals
      simp only [List.getElem?_cons_succ, List.getElem?_cons_zero, Option.some.injEq] at hc
      subst hc
      first | rfl | exact absurd rfl hne
  · intro j s hs hz
    have hb : ∀ (k e a b : ℕ), DirEdge trisEx k e a b → (k, e) ∉ [(0, 1), (1, 1)] →
        ∃ k e, On trisEx k e (a, b) ∧ ¬ ∃ l f, Across trisEx k e l f :=
      fun k e a b h h' => ⟨k, e, Or.inl h, by rw [hacross]; exact h'⟩
    rw [hseg] at hs
    obtain ⟨a, b⟩ := s
    simp only [List.mem_cons, List.not_mem_nil, or_false, Prod.mk.injEq] at hs
    rcases hs with ⟨rfl, rfl, rfl⟩ | ⟨rfl, rfl, rfl⟩ | ⟨rfl, rfl, rfl⟩ | ⟨rfl, rfl, rfl⟩ | ⟨rfl, rfl, rfl⟩
    · have := hz 0 rfl
      simp at this
    · exact ⟨fun _ => rfl, fun h => absurd (hb 0 0 1 2 ((dirEdge_ex _ _ _ _).2 (by simp)) (by simp)) h⟩
    · have := hz 2 rfl
      simp at this
    · exact ⟨fun _ => rfl, fun h => absurd (hb 1 0 3 0 ((dirEdge_ex _ _ _ _).2 (by simp)) (by simp)) h⟩
    · have := hz 4 rfl
      simp at this

/-- The hypotheses of `C90_domain` hold. -/
example : ∃ m, domainOf tagsEx (fun _ => (trisEx, segsEx, markersEx)) = some m ∧ m.boundary.lookup (0, 2) = some "wall" := by
  obtain ⟨m, h1, h2⟩ := C90_domain (gen := fun _ => (trisEx, segsEx, markersEx)) rfl faithfulEx
  exact ⟨m, h1, (h2 _ _ _).2 (Or.inl ⟨by decide, 0, 0, (0, 1), rfl, Or.inl ((dirEdge_ex _ _ _ _).2 (by simp)), rfl, rfl⟩)⟩

/-- The boundary that results: the segment inside is an edge of both triangles. -/
example : (domainOf tagsEx (fun _ => (trisEx, segsEx, markersEx))).map (fun m => [(0, 0), (0, 1), (0, 2), (1, 0), (1, 1), (1, 2)].map
    fun p => m.boundary.lookup p) = some [some "exterior", some "dam", some "wall", some "exterior", some "dam", some "sea"] := by decide +kernel

end Verif.Gen
