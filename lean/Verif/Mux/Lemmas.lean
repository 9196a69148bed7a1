import Verif.Mux.Spec
import Mathlib.Algebra.BigOperators.Group.List.Basic
import Mathlib.Data.List.Infix

/-! # Taking multiplexed data apart -/

namespace Verif.Mux

set_option linter.unusedSectionVars false

variable {K : Type} [Field K] [LinearOrder K]

/-- Records of one step. -/
def stepRecs (s : Src K) (total : ℕ) (stamp : ℕ → K) (v : ℕ → ℕ → K) (it : ℕ) : List K :=
  stamp (it + 1) :: ((List.range total).filter fun j => recording s j it).map fun j => v j (it + 1)

theorem records_eq (s : Src K) (total : ℕ) (stamp : ℕ → K) (v : ℕ → ℕ → K) (n : ℕ) :
    records s total stamp v n = (List.range n).flatMap (stepRecs s total stamp v) := by
  unfold records stepRecs recording
  simp only [Bool.decide_and]

theorem records_succ (s : Src K) (total : ℕ) (stamp : ℕ → K) (v : ℕ → ℕ → K) (n : ℕ) :
    records s total stamp v (n + 1) = records s total stamp v n ++ stepRecs s total stamp v n := by
  rw [records_eq, records_eq, List.range_succ, List.flatMap_append]
  simp

theorem records_mono (s : Src K) (total : ℕ) (stamp : ℕ → K) (v : ℕ → ℕ → K) {n k : ℕ} (h : n ≤ k) :
    records s total stamp v n <+: records s total stamp v k := by
  induction k with
  | zero =>
    obtain rfl : n = 0 := by omega
    exact List.prefix_refl _
  | succ k ih =>
    by_cases e : n = k + 1
    · subst e; exact List.prefix_refl _
    · rw [records_succ]
      exact (ih (by omega)).trans (List.prefix_append _ _)

/-- Stations in three parts. -/
theorem range_split (total ista : ℕ) (h : ista < total) :
    List.range total = List.range' 0 (ista - 0) ++ ista :: List.range' (ista + 1) (total - (ista + 1)) := by
  rw [Nat.sub_zero, ← List.range_eq_range']
  have e : total = ista + ((total - (ista + 1)) + 1) := by omega
  conv_lhs => rw [e, List.range_add]
  congr 1
  rw [List.range_succ_eq_map, List.map_cons, List.map_map, List.range'_eq_map_range]
  simp only [Nat.add_zero, List.cons.injEq, true_and]
  refine List.map_congr_left fun a _ => ?_
  simp only [Function.comp]
  omega

theorem stepRecs_length (s : Src K) (total : ℕ) (stamp : ℕ → K) (v : ℕ → ℕ → K) (it ista : ℕ) (h : ista < total) :
    (stepRecs s total stamp v it).length =
      1 + skipped s 0 ista it + (if recording s ista it then 1 else 0) + skipped s (ista + 1) total it := by
  unfold stepRecs skipped
  rw [List.length_cons, List.length_map, ← List.countP_eq_length_filter, range_split total ista h, List.countP_append, List.countP_cons]
  omega

theorem stepRecs_get (s : Src K) (total : ℕ) (stamp : ℕ → K) (v : ℕ → ℕ → K) (it ista : ℕ) (h : ista < total)
    (hr : recording s ista it = true) : (stepRecs s total stamp v it)[1 + skipped s 0 ista it]? = some (v ista (it + 1)) := by
  unfold stepRecs skipped
  rw [Nat.add_comm 1, List.getElem?_cons_succ, range_split total ista h, List.filter_append, List.map_append,
    List.getElem?_append_right (by rw [List.length_map, List.countP_eq_length_filter])]
  rw [List.length_map, List.countP_eq_length_filter, Nat.sub_self, List.filter_cons, if_pos hr]
  rfl

/-- The loop gives the series from step `it + 1` on. -/
theorem fillLoop_ok {s : Src K} {total : ℕ} {v : ℕ → ℕ → K} {stamp : ℕ → K} {buf : List K} {ista : ℕ} (hi : ista < total) (N : ℕ)
    (hN : lro s ista ≤ (N : ℤ)) (hb : records s total stamp v N <+: buf) (n it : ℕ) :
    fillLoop s buf ista total n it (records s total stamp v it).length =
      .ok ((List.range' it n).map fun (k : ℕ) => if ((k : ℤ) + 1 < fro s ista) then 0 else if (k : ℤ) + 1 ≤ lro s ista then v ista (k + 1) else 99) := by
  induction n generalizing it with
  | zero => rfl
  | succ n ih =>
    have hlen := stepRecs_length s total stamp v it ista hi
    have hsucc : (records s total stamp v (it + 1)).length = (records s total stamp v it).length + (stepRecs s total stamp v it).length := by
      rw [records_succ, List.length_append]
    unfold fillLoop
    simp only
    by_cases hr : recording s ista it = true
    · rw [if_pos hr]
      have hrec : fro s ista ≤ it + 1 ∧ (it : ℤ) + 1 ≤ lro s ista := by
        unfold recording at hr
        simpa using hr
      have hget : buf[(records s total stamp v it).length + 1 + skipped s 0 ista it]? = some (v ista (it + 1)) := by
        have hp : records s total stamp v (it + 1) <+: buf := (records_mono s total stamp v (by omega)).trans hb
        obtain ⟨rest, hrest⟩ := hp
        rw [← hrest, records_succ, List.append_assoc, List.getElem?_append_right (by omega)]
        have e : (records s total stamp v it).length + 1 + skipped s 0 ista it - (records s total stamp v it).length
            = 1 + skipped s 0 ista it := by omega
        rw [e, List.getElem?_append_left (by rw [hlen, if_pos hr]; omega), stepRecs_get s total stamp v it ista hi hr]
      rw [hget]
      simp only
      have e : (records s total stamp v it).length + 1 + skipped s 0 ista it + 1 + skipped s (ista + 1) total it =
          (records s total stamp v (it + 1)).length := by
        rw [hsucc, hlen, if_pos hr]; omega
      rw [e, ih (it + 1), List.range'_succ, List.map_cons, if_neg (by omega), if_pos hrec.2]
    · rw [if_neg hr]
      have hnr : ¬ (fro s ista ≤ it + 1 ∧ (it : ℤ) + 1 ≤ lro s ista) := by
        unfold recording at hr
        simpa using hr
      by_cases hlt : (it : ℤ) + 1 < fro s ista
      · rw [if_pos hlt]
        have e : (records s total stamp v it).length + 1 + skipped s 0 ista it + skipped s (ista + 1) total it =
            (records s total stamp v (it + 1)).length := by
          rw [hsucc, hlen, if_neg hr]; omega
        rw [e, ih (it + 1)]
        rw [List.range'_succ, List.map_cons, if_pos hlt]
      · rw [if_neg hlt]
        congr 1
        refine (List.eq_replicate_iff.2 ⟨by simp, ?_⟩).symm
        intro x hx
        obtain ⟨k, hk, rfl⟩ := List.mem_map.1 hx
        have hk := (List.mem_range'_1.1 hk).1
        rw [if_neg (by omega), if_neg (by omega)]
        rfl

theorem lastStep_spec (s : Src K) (l : List ℕ) (a : ℤ) :
    a ≤ l.foldl (fun a j => if fro s j = -1 then a else max a (lro s j)) a ∧
    ∀ j ∈ l, fro s j ≠ -1 → lro s j ≤ l.foldl (fun a j => if fro s j = -1 then a else max a (lro s j)) a := by
  induction l generalizing a with
  | nil => simp
  | cons i l ih =>
    rw [List.foldl_cons]
    obtain ⟨h1, h2⟩ := ih (if fro s i = -1 then a else max a (lro s i))
    refine ⟨le_trans ?_ h1, ?_⟩
    · by_cases h : fro s i = -1
      · rw [if_pos h]
      · rw [if_neg h]; exact le_max_left _ _
    · intro j hj hf
      rcases List.mem_cons.1 hj with rfl | hj
      · refine le_trans ?_ h1
        rw [if_neg hf]
        exact le_max_right _ _
      · exact h2 j hj hf

/-- Number of records of one station up to a step. -/
theorem count_station (s : Src K) (j n : ℕ) (hs : (fro s j = -1 ∧ lro s j = -1) ∨ (1 ≤ fro s j ∧ fro s j ≤ lro s j)) :
    (((List.range n).countP fun it => recording s j it) : ℤ) ≤ if fro s j = -1 then 0 else lro s j - fro s j + 1 := by
  rcases hs with ⟨h1, h2⟩ | ⟨h1, h2⟩
  · rw [if_pos h1, List.countP_eq_zero.2]
    · simp
    · intro it _
      unfold recording
      rw [h1, h2]
      simp
      omega
  · rw [if_neg (by omega)]
    have key : ∀ n : ℕ, (((List.range n).countP fun it => recording s j it) : ℤ) ≤ max 0 (min (n : ℤ) (lro s j) - fro s j + 1) := by
      intro n
      induction n with
      | zero => simp
      | succ n ih =>
        rw [List.range_succ, List.countP_append]
        simp only [List.countP_cons, List.countP_nil]
        by_cases hr : recording s j n = true
        · have hrec : fro s j ≤ n + 1 ∧ (n : ℤ) + 1 ≤ lro s j := by
            unfold recording at hr
            simpa using hr
          rw [if_pos hr]
          push_cast
          have e1 : min ((n : ℤ)) (lro s j) = n := min_eq_left (by omega)
          have e2 : min ((n : ℤ) + 1) (lro s j) = n + 1 := min_eq_left (by omega)
          rw [e1] at ih
          rw [e2]
          rcases le_total 0 ((n : ℤ) - fro s j + 1) with h | h
          · rw [max_eq_right h] at ih
            rw [max_eq_right (by omega)]
            omega
          · rw [max_eq_left h] at ih
            refine le_trans ?_ (le_max_right _ _)
            omega
        · rw [if_neg hr]
          push_cast
          refine le_trans (by omega : _ ≤ _) (le_trans ih (max_le_max le_rfl ?_))
          have := min_le_min_right (lro s j) (show (n : ℤ) ≤ n + 1 by omega)
          omega
    have := key n
    refine le_trans this (max_le (by omega) ?_)
    have := min_le_right (n : ℤ) (lro s j)
    omega

theorem records_length (s : Src K) (total : ℕ) (stamp : ℕ → K) (v : ℕ → ℕ → K) (n : ℕ) :
    (records s total stamp v n).length = n + ((List.range total).map fun j => (List.range n).countP fun it => recording s j it).sum := by
  induction n with
  | zero => simp [records]
  | succ n ih =>
    rw [records_succ, List.length_append, ih]
    unfold stepRecs
    rw [List.length_cons, List.length_map, ← List.countP_eq_length_filter]
    have : ∀ l : List ℕ, (l.map fun j => (List.range (n + 1)).countP fun it => recording s j it).sum =
        (l.map fun j => (List.range n).countP fun it => recording s j it).sum + l.countP fun j => recording s j n := by
      intro l
      induction l with
      | nil => rfl
      | cons j l ih =>
        rw [List.map_cons, List.sum_cons, ih, List.map_cons, List.sum_cons, List.countP_cons, List.range_succ, List.countP_append]
        simp only [List.countP_cons, List.countP_nil]
        omega
    rw [this]
    omega

/-- The buffer is long enough. -/
theorem records_le (s : Src K) (total : ℕ) (stamp : ℕ → K) (v : ℕ → ℕ → K) (ht : 0 < total)
    (hs : ∀ j, j < total → (fro s j = -1 ∧ lro s j = -1) ∨ (1 ≤ fro s j ∧ fro s j ≤ lro s j)) :
    0 ≤ numData s total ∧ (records s total stamp v (lastStep s total).toNat).length ≤ (numData s total).toNat := by
  have h0 : 0 ≤ lastStep s total := (lastStep_spec s (List.range total) 0).1
  have hsum : ∀ l : List ℕ, (∀ j ∈ l, j < total) →
      (((l.map fun j => (List.range (lastStep s total).toNat).countP fun it => recording s j it).sum : ℕ) : ℤ) ≤
        (l.map fun j => if fro s j = -1 then (0 : ℤ) else lro s j - fro s j + 1).sum := by
    intro l
    induction l with
    | nil => simp
    | cons j l ih =>
      intro hl
      rw [List.map_cons, List.sum_cons, List.map_cons, List.sum_cons]
      push_cast
      exact add_le_add (count_station s j _ (hs j (hl j List.mem_cons_self))) (by
        have := ih fun i hi => hl i (List.mem_cons_of_mem _ hi)
        push_cast at this
        exact this)
  have h1 := hsum (List.range total) fun j hj => List.mem_range.1 hj
  have h2 : lastStep s total ≤ lastStep s total * total := by
    have : (1 : ℤ) ≤ total := by exact_mod_cast ht
    nlinarith
  have h3 := records_length s total stamp v (lastStep s total).toNat
  have h4 : ((records s total stamp v (lastStep s total).toNat).length : ℤ) ≤ numData s total := by
    rw [h3]
    unfold numData
    push_cast at h1 ⊢
    rw [Int.toNat_of_nonneg h0] at *
    omega
  constructor
  · exact le_trans (by positivity) h4
  · omega

end Verif.Mux
