import Verif.Par.Model
import Verif.Par.Spec
import Verif.Mesh.Props
import Mathlib.Data.List.GetD
import Mathlib.Data.List.Range
import Mathlib.Data.List.Perm.Basic
import Mathlib.Data.List.Perm.Subperm
import Mathlib.Algebra.BigOperators.Group.List.Basic

/-!
# Lemmas on the list helpers and on the renumbering
-/

namespace Verif.Par

open Verif.Mesh (Tri BDict MeshData MeshErr buildMesh)

section Helpers

variable {α : Type*} [LinearOrder α]

theorem mem_unique (l : List α) (x : α) : x ∈ unique l ↔ x ∈ l := by
  simp [unique]

theorem unique_sorted (l : List α) : (unique l).Pairwise (· < ·) := by
  have h1 : (unique l).Pairwise (· ≤ ·) := List.pairwise_insertionSort _ _
  have h2 : (unique l).Nodup := (List.perm_insertionSort _ _).nodup_iff.mpr (List.nodup_dedup l)
  have := h1.and h2
  exact this.imp (fun h => lt_of_le_of_ne h.1 h.2)

theorem mem_setdiff (a b : List α) (x : α) : x ∈ setdiff a b ↔ x ∈ a ∧ x ∉ b := by
  simp [setdiff, mem_unique]

theorem mem_union (a b : List α) (x : α) : x ∈ union a b ↔ x ∈ a ∨ x ∈ b := by
  simp [union, mem_unique]

theorem setdiff_sorted (a b : List α) : (setdiff a b).Pairwise (· < ·) := (unique_sorted a).filter _

theorem sorted_ext {a b : List α} (ha : a.Pairwise (· < ·)) (hb : b.Pairwise (· < ·)) (h : ∀ x, x ∈ a ↔ x ∈ b) : a = b := by
  have na : a.Nodup := ha.imp (fun h => h.ne)
  have nb : b.Nodup := hb.imp (fun h => h.ne)
  exact ((List.perm_ext_iff_of_nodup na nb).mpr h).eq_of_pairwise (le := (· < ·))
    (fun a b _ _ h1 h2 => absurd h1 (lt_asymm h2)) ha hb

end Helpers

/-! ## counts and the order -/

theorem procSum_succ (tpp : List ℕ) (p : ℕ) : procSum tpp (p + 1) = procSum tpp p + tpp.getD p 0 := by
  unfold procSum
  rw [List.take_add_one, List.sum_append]
  cases h : tpp[p]? <;> simp [List.getD, h]

theorem procSum_mono (tpp : List ℕ) {p q : ℕ} (h : p ≤ q) : procSum tpp p ≤ procSum tpp q := by
  induction h with
  | refl => exact le_refl _
  | step _ ih => exact le_trans ih (by rw [procSum_succ]; omega)

theorem le_foldr_max (l : List ℕ) (x : ℕ) (h : x ∈ l) : x ≤ l.foldr max 0 := by
  induction l with
  | nil => cases h
  | cons a l ih =>
    rw [List.foldr_cons]
    rcases List.mem_cons.mp h with rfl | h
    · exact le_max_left _ _
    · exact le_trans (ih h) (le_max_right _ _)

theorem foldr_max_mem (l : List ℕ) (h : l ≠ []) : l.foldr max 0 ∈ l := by
  induction l with
  | nil => exact absurd rfl h
  | cons a l ih =>
    rw [List.foldr_cons]
    by_cases hl : l = []
    · subst hl; simp
    · rcases max_choice a (l.foldr max 0) with hm | hm <;> rw [hm]
      · simp
      · exact List.mem_cons_of_mem _ (ih hl)

theorem bincount_getD (l : List ℕ) (p : ℕ) : (bincount l).getD p 0 = l.count p := by
  unfold bincount
  split
  · rename_i h; subst h; simp
  · by_cases hp : p < l.foldr max 0 + 1
    · simp [List.getD, hp]
    · have : l.count p = 0 := List.count_eq_zero.mpr (fun hm => hp (Nat.lt_succ_of_le (le_foldr_max l p hm)))
      rw [this]
      simp [List.getD, hp]

theorem bincount_length (l : List ℕ) (x : ℕ) (h : x ∈ l) : x < (bincount l).length := by
  unfold bincount
  split
  · rename_i h'; subst h'; cases h
  · simp only [List.length_map, List.length_range]
    exact Nat.lt_succ_of_le (le_foldr_max l x h)

theorem countP_lt_succ (l : List ℕ) (p : ℕ) :
    l.countP (fun x => decide (x < p + 1)) = l.countP (fun x => decide (x < p)) + l.count p := by
  induction l with
  | nil => rfl
  | cons a l ih =>
    simp only [List.countP_cons, List.count_cons, ih]
    by_cases h1 : a < p
    · have h2 : a < p + 1 := by omega
      have h3 : (a == p) = false := by simp; omega
      simp [h1, h2, h3]; omega
    · by_cases h2 : a = p
      · subst h2; simp; omega
      · have h3 : ¬ a < p + 1 := by omega
        have h4 : (a == p) = false := by simp [h2]
        simp [h1, h3, h4]

theorem procSum_eq (epart : List ℕ) (p : ℕ) :
    procSum (bincount epart) p = epart.countP (fun x => decide (x < p)) := by
  induction p with
  | zero => simp [procSum]
  | succ p ih => rw [procSum_succ, ih, bincount_getD, countP_lt_succ]

theorem order_perm (epart : List ℕ) : (orderOf epart).Perm (List.range epart.length) := List.perm_insertionSort _ _

theorem order_length (epart : List ℕ) : (orderOf epart).length = epart.length := by
  rw [(order_perm epart).length_eq, List.length_range]

theorem order_nodup (epart : List ℕ) : (orderOf epart).Nodup := (order_perm epart).nodup_iff.mpr List.nodup_range

theorem mem_order (epart : List ℕ) (t : ℕ) : t ∈ orderOf epart ↔ t < epart.length := by
  rw [(order_perm epart).mem_iff, List.mem_range]

instance (f : ℕ → ℕ) : Std.Total (fun i j : ℕ => f i ≤ f j) := ⟨fun i j => le_total (f i) (f j)⟩
instance (f : ℕ → ℕ) : IsTrans ℕ (fun i j : ℕ => f i ≤ f j) := ⟨fun _ _ _ h1 h2 => le_trans h1 h2⟩

/-- In a sorted list the entries below `p` come first. -/
theorem sorted_countP (l : List ℕ) (h : l.Pairwise (· ≤ ·)) (p i : ℕ) (hi : i < l.length) :
    l[i] < p ↔ i < l.countP (fun x => decide (x < p)) := by
  induction l generalizing i with
  | nil => simp at hi
  | cons a l ih =>
    obtain ⟨h1, h2⟩ := List.pairwise_cons.mp h
    rw [List.countP_cons]
    cases i with
    | zero =>
      simp only [List.getElem_cons_zero]
      by_cases ha : a < p
      · simp [ha]
      · have : l.countP (fun x => decide (x < p)) = 0 := by
          rw [List.countP_eq_zero]
          intro x hx
          simp only [decide_eq_true_eq]
          have := h1 x hx
          omega
        simp [ha, this]
    | succ i =>
      simp only [List.getElem_cons_succ]
      simp only [List.length_cons] at hi
      rw [ih h2 i (by omega)]
      by_cases ha : a < p
      · simp [ha]
      · have : l.countP (fun x => decide (x < p)) = 0 := by
          rw [List.countP_eq_zero]
          intro x hx
          simp only [decide_eq_true_eq]
          have := h1 x hx
          omega
        simp [ha, this]

theorem range_map_getD (l : List ℕ) : (List.range l.length).map (fun i => l.getD i 0) = l := by
  apply List.ext_getElem
  · simp
  · intro i h1 h2
    simp [List.getD, List.getElem?_eq_getElem h2]

theorem order_keys (epart : List ℕ) : ((orderOf epart).map (fun i => epart.getD i 0)).Perm epart := by
  have := (order_perm epart).map (fun i => epart.getD i 0)
  rwa [range_map_getD] at this

/-- Position `i` of the new numbering lies in the range of processor `p` exactly when the triangle there was given to `p`. -/
theorem order_range (epart : List ℕ) (i p : ℕ) (hi : i < epart.length) :
    epart.getD ((orderOf epart).getD i 0) 0 = p ↔ procSum (bincount epart) p ≤ i ∧ i < procSum (bincount epart) (p + 1) := by
  have hs : ((orderOf epart).map (fun i => epart.getD i 0)).Pairwise (· ≤ ·) := by
    rw [List.pairwise_map]
    exact List.pairwise_insertionSort _ _
  have hil : i < (orderOf epart).length := by rw [order_length]; exact hi
  have key : ∀ q, epart.getD ((orderOf epart).getD i 0) 0 < q ↔ i < procSum (bincount epart) q := by
    intro q
    have := sorted_countP _ hs q i (by simpa using hil)
    rw [List.getElem_map, (order_keys epart).countP_eq] at this
    rw [procSum_eq, ← this]
    rw [List.getD_eq_getElem _ _ hil]
  have h1 := key p
  have h2 := key (p + 1)
  omega

/-- Within a processor triangles keep their serial order. -/
theorem order_stable (epart : List ℕ) (i j : ℕ) (hij : i < j) (hj : j < epart.length)
    (h : epart.getD ((orderOf epart).getD i 0) 0 = epart.getD ((orderOf epart).getD j 0) 0) :
    (orderOf epart).getD i 0 < (orderOf epart).getD j 0 := by
  have hjl : j < (orderOf epart).length := by rw [order_length]; exact hj
  have hil : i < (orderOf epart).length := by omega
  rw [List.getD_eq_getElem _ _ hil, List.getD_eq_getElem _ _ hjl] at h ⊢
  by_contra hc
  have hne : (orderOf epart)[i] ≠ (orderOf epart)[j] := by
    intro he
    have := (List.Nodup.getElem_inj_iff (order_nodup epart)).mp he
    omega
  have hlt : (orderOf epart)[j] < (orderOf epart)[i] := by omega
  have hi' : (orderOf epart)[i] < epart.length := (mem_order epart _).mp (List.getElem_mem hil)
  have hsub : [(orderOf epart)[j], (orderOf epart)[i]].Sublist (List.range epart.length) := by
    have h1 : [(orderOf epart)[j], (orderOf epart)[i]].Pairwise (· < ·) := by simp [hlt]
    refine List.sublist_of_subperm_of_pairwise ?_ h1 List.pairwise_lt_range
    refine List.subperm_of_subset (h1.imp (fun h => h.ne)) ?_
    intro x hx
    simp only [List.mem_cons, List.not_mem_nil, or_false] at hx
    rw [List.mem_range]
    omega
  have := List.pair_sublist_insertionSort (r := fun i j => epart.getD i 0 ≤ epart.getD j 0) (le_of_eq h.symm) hsub
  have hnd := order_nodup epart
  have hp2 : [(orderOf epart)[j], (orderOf epart)[i]].Sublist (orderOf epart) := this
  rw [List.sublist_iff_exists_fin_orderEmbedding_get_eq] at hp2
  obtain ⟨f, hf⟩ := hp2
  have g0 := hf ⟨0, by simp⟩
  have g1 := hf ⟨1, by simp⟩
  simp only [List.get_eq_getElem, List.getElem_cons_zero, List.getElem_cons_succ] at g0 g1
  have e0 := (List.Nodup.getElem_inj_iff hnd).mp g0
  have e1 := (List.Nodup.getElem_inj_iff hnd).mp g1
  have hlt2 : f ⟨0, by simp⟩ < f ⟨1, by simp⟩ := f.strictMono (by simp)
  have : (f ⟨0, by simp⟩ : ℕ) < f ⟨1, by simp⟩ := hlt2
  omega

end Verif.Par
