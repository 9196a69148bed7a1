import Verif.Sparse.PropsCsr
import Mathlib.Tactic.Linarith
import Mathlib.Tactic.Positivity
import Mathlib.Tactic.GCongr
import Mathlib.Algebra.Order.Field.Basic

/-! # C52: the dictionary of keys in which the fitting matrices are summed up -/

namespace Verif.Sparse

set_option linter.unusedSectionVars false

variable {K : Type*} [Field K] [LinearOrder K] [IsStrictOrderedRing K]

/-! ## Vocabulary -/

/-- Ways in which the fitting code makes such a matrix. -/
inductive DExpr (K : Type*) where
  | make
  | add (d : DExpr K) (k : Key) (v : K)
  | combine (a : DExpr K) (m1 : K) (b : DExpr K) (m2 : K)

def DExpr.eval : DExpr K → Dok K
  | .make => Dok.make
  | .add d k v => d.eval.addEntry k v
  | .combine a m1 b m2 => a.eval.combine m1 b.eval m2

/-- The matrix meant. -/
def DExpr.den : DExpr K → Key → K
  | .make => fun _ => 0
  | .add d k v => fun k' => d.den k' + if k' = k then v else 0
  | .combine a m1 b m2 => fun k => m1 * a.den k + m2 * b.den k

/-- Largest error through dropping small entries. -/
def DExpr.slack : DExpr K → Key → K
  | .make => fun _ => 0
  | .add d k _ => fun k' => d.slack k' + if k' = k then 1 / 10 ^ 10 else 0
  | .combine a m1 b m2 => fun k => |m1| * a.slack k + |m2| * b.slack k + 1 / 10 ^ 10

/-- The entry at `k` is never within `10^-10` of zero without being zero. -/
def DExpr.Clear : DExpr K → Key → Prop
  | .make => fun _ => True
  | .add d k v => fun k' => d.Clear k' ∧ (d.den k' + (if k' = k then v else 0) = 0 ∨ 1 / 10 ^ 10 < |d.den k' + if k' = k then v else 0|)
  | .combine a m1 b m2 => fun k => a.Clear k ∧ b.Clear k ∧
      (m1 * a.den k + m2 * b.den k = 0 ∨ 1 / 10 ^ 10 < |m1 * a.den k + m2 * b.den k|)

/-! ## Lemmas -/

structure DWF (d : Dok K) : Prop where
  nodup : (keys d.table).Nodup
  rows : ∀ k ∈ keys d.table, k.1 ≤ d.numRows
  count : d.numEntries = d.table.length

theorem small_iff (x : K) : (x ≤ 1 / 10 ^ 10 ∧ x ≥ -(1 / 10 ^ 10)) ↔ |x| ≤ 1 / 10 ^ 10 := by
  rw [abs_le]; exact ⟨fun h => ⟨h.2, h.1⟩, fun h => ⟨h.2, h.1⟩⟩

theorem length_keys (l : List (Key × K)) : (keys l).length = l.length := by simp [keys]

theorem lookup_some_look {l : List (Key × K)} {k : Key} {v : K} (h : l.lookup k = some v) : look l k = v := by
  unfold look; rw [h]; rfl

theorem addEntry_spec {d : Dok K} (hd : DWF d) (k : Key) (v : K) :
    DWF (d.addEntry k v) ∧ (∀ k', k' ≠ k → look (d.addEntry k v).table k' = look d.table k') ∧
      look (d.addEntry k v).table k = (if |look d.table k + v| ≤ 1 / 10 ^ 10 then 0 else look d.table k + v) ∧
      d.numRows ≤ (d.addEntry k v).numRows := by
  unfold Dok.addEntry
  cases hl : d.table.lookup k with
  | some old =>
    have hk : k ∈ keys d.table := lookup_isSome.mp (by rw [hl]; rfl)
    have hlook := lookup_some_look hl
    simp only [small_iff]
    rw [hlook]
    by_cases hs : |old + v| ≤ 1 / 10 ^ 10
    · rw [if_pos hs, if_pos hs]
      refine ⟨⟨nodup_del hd.nodup k, ?_, ?_⟩, ?_, ?_, le_refl _⟩
      · intro k' hk'
        rw [keys_del] at hk'
        exact hd.rows k' (List.mem_filter.mp hk').1
      · have h1 : (keys (del d.table k)).length + 1 = (keys d.table).length := by
          rw [keys_del]
          have h2 : (keys d.table).filter (fun x => decide (x ≠ k)) = (keys d.table).erase k := by
            rw [hd.nodup.erase_eq_filter]
            congr 1
            funext x
            rw [Bool.eq_iff_iff]
            simp
          rw [h2, List.length_erase_of_mem hk]
          have := List.length_pos_of_mem hk
          omega
        rw [length_keys, length_keys] at h1
        simp only [hd.count]
        omega
      · intro k' hk'
        rw [look_del, if_neg hk']
      · rw [look_del, if_pos rfl]
    · rw [if_neg hs, if_neg hs]
      refine ⟨⟨nodup_put hd.nodup _ _, ?_, ?_⟩, ?_, ?_, le_refl _⟩
      · intro k' hk'
        rw [keys_put, if_pos hk] at hk'
        exact hd.rows k' hk'
      · have h1 : (keys (put d.table k (old + v))).length = (keys d.table).length := by rw [keys_put, if_pos hk]
        rw [length_keys, length_keys] at h1
        simp only [hd.count, h1]
      · intro k' hk'
        rw [look_put, if_neg hk']
      · rw [look_put, if_pos rfl]
  | none =>
    have hk : k ∉ keys d.table := lookup_none.mp hl
    simp only [small_iff]
    rw [look_of_not_mem hk, zero_add]
    by_cases hs : |v| ≤ 1 / 10 ^ 10
    · rw [if_pos hs, if_pos hs]
      refine ⟨⟨hd.nodup, ?_, ?_⟩, fun k' _ => rfl, look_of_not_mem hk, ?_⟩
      · intro k' hk'
        have := hd.rows k' hk'
        simp only
        split_ifs <;> omega
      · simp only [hd.count]; omega
      · simp only; split_ifs <;> omega
    · rw [if_neg hs, if_neg hs]
      have hkeys : keys (d.table ++ [(k, v)]) = keys d.table ++ [k] := by simp [keys]
      refine ⟨⟨?_, ?_, ?_⟩, ?_, ?_, ?_⟩
      · simp only [hkeys]
        rw [List.nodup_append]
        exact ⟨hd.nodup, by simp, by rintro a ha b hb rfl; simp at hb; exact hk (hb ▸ ha)⟩
      · intro k' hk'
        simp only [hkeys, List.mem_append, List.mem_singleton] at hk'
        simp only
        rcases hk' with h | h
        · have := hd.rows k' h; split_ifs <;> omega
        · rw [h]; split_ifs <;> omega
      · simp only [hd.count, List.length_append, List.length_singleton]; push_cast; rfl
      · intro k' hk'
        rw [look_append _ _ _ (Or.inr (by simp [keys, hk'])), look_of_not_mem (l := [(k, v)]) (by simp [keys, hk']), add_zero]
      · rw [look_append _ _ _ (Or.inl hk), look_of_not_mem hk, look_cons, if_pos rfl, zero_add]
      · simp only; split_ifs <;> omega

theorem fold_addEntry (l : List (Key × K)) : ∀ (d : Dok K), DWF d → (keys l).Nodup →
    let r := l.foldl (fun d e => d.addEntry e.1 e.2) d
    DWF r ∧ ∀ k, look r.table k = if k ∈ keys l then (if |look d.table k + look l k| ≤ 1 / 10 ^ 10 then 0 else look d.table k + look l k)
      else look d.table k := by
  induction l with
  | nil => intro d hd _; exact ⟨hd, fun k => by simp⟩
  | cons e l ih =>
    intro d hd hn
    simp only [keys, List.map_cons, List.nodup_cons] at hn
    obtain ⟨a1, a2, a3, -⟩ := addEntry_spec hd e.1 e.2
    obtain ⟨b1, b2⟩ := ih _ a1 hn.2
    rw [List.foldl_cons]
    refine ⟨b1, fun k => ?_⟩
    rw [b2 k]
    by_cases hk : k = e.1
    · subst hk
      have h0 : e.1 ∉ keys l := hn.1
      rw [if_neg h0, if_pos (by simp), a3, look_cons, if_pos rfl]
    · rw [a2 k hk, look_cons, if_neg hk]
      have : k ∈ keys (e :: l) ↔ k ∈ keys l := by simp [keys, hk]
      simp only [this]

theorem look_map_key (l : List (Key × K)) (g : Key → K → K) (k : Key) :
    look (l.map (fun e => (e.1, g e.1 e.2))) k = if k ∈ keys l then g k (look l k) else 0 := by
  induction l with
  | nil => simp [look_nil]
  | cons e l ih =>
    rw [List.map_cons, look_cons, look_cons, ih]
    by_cases h : k = e.1
    · subst h; simp
    · have : k ∈ keys (e :: l) ↔ k ∈ keys l := by simp [keys, h]
      simp only [this, h, if_false]

theorem combine_spec {a b : Dok K} (ha : DWF a) (hb : DWF b) (m1 m2 : K) :
    DWF (a.combine m1 b m2) ∧ ∀ k, look (a.combine m1 b m2).table k =
      if k ∈ keys b.table ∧ |m1 * look a.table k + m2 * look b.table k| ≤ 1 / 10 ^ 10 then 0
      else m1 * look a.table k + m2 * look b.table k := by
  have e1 : (a.table.map (fun e => (e.1, mixed (b.table.lookup e.1) e.2 m1 m2))) = a.table.map (fun e => (e.1, m1 * e.2 + m2 * look b.table e.1)) := by
    apply List.map_congr_left
    intro e _
    unfold look mixed
    cases b.table.lookup e.1 <;> simp [mul_comm]
  have hk1 : keys (a.table.map (fun e => (e.1, m1 * e.2 + m2 * look b.table e.1))) = keys a.table := by simp [keys, List.map_map]
  have e2 : (a.combine m1 b m2) = (b.table.map (fun e => (e.1, (if (a.table.lookup e.1).isSome then 0 else e.2) * m2))).foldl
      (fun d e => d.addEntry e.1 e.2) ⟨a.table.map (fun e => (e.1, m1 * e.2 + m2 * look b.table e.1)), a.numEntries, a.numRows⟩ := by
    unfold Dok.combine
    simp only [e1, List.foldl_map]
  obtain ⟨h1, h2⟩ := fold_addEntry (b.table.map (fun e => (e.1, (if (a.table.lookup e.1).isSome then 0 else e.2) * m2)))
    ⟨a.table.map (fun e => (e.1, m1 * e.2 + m2 * look b.table e.1)), a.numEntries, a.numRows⟩
    ⟨by simp only [hk1]; exact ha.nodup, by simp only [hk1]; exact ha.rows, by simp only [List.length_map]; exact ha.count⟩
    (by
      have : keys (b.table.map (fun e => (e.1, (if (a.table.lookup e.1).isSome then 0 else e.2) * m2))) = keys b.table := by
        simp [keys, List.map_map]
      rw [this]; exact hb.nodup)
  rw [← e2] at h1 h2
  refine ⟨h1, fun k => ?_⟩
  have hkb : keys (b.table.map (fun e => (e.1, (if (a.table.lookup e.1).isSome then 0 else e.2) * m2))) = keys b.table := by
    simp [keys, List.map_map]
  rw [h2 k, hkb]
  simp only
  rw [look_map_key a.table (fun k v => m1 * v + m2 * look b.table k), look_map_key b.table (fun k v => (if (a.table.lookup k).isSome then 0 else v) * m2)]
  by_cases hb' : k ∈ keys b.table
  · rw [if_pos hb', if_pos hb']
    by_cases ha' : k ∈ keys a.table
    · rw [if_pos ha', if_pos (lookup_isSome.mpr ha'), zero_mul, add_zero]
      simp [hb']
    · rw [if_neg ha', if_neg (fun h => ha' (lookup_isSome.mp h)), look_of_not_mem ha']
      simp [hb', mul_comm]
  · rw [if_neg hb', look_of_not_mem hb']
    have hn : ¬ (k ∈ keys b.table ∧ |m1 * look a.table k + m2 * 0| ≤ 1 / 10 ^ 10) := fun h => hb' h.1
    rw [if_neg hn]
    by_cases ha' : k ∈ keys a.table
    · rw [if_pos ha']
    · rw [if_neg ha', look_of_not_mem ha']; ring

theorem dexpr_wf (e : DExpr K) : DWF e.eval := by
  induction e with
  | make => exact ⟨by simp [DExpr.eval, Dok.make], by simp [DExpr.eval, Dok.make], by simp [DExpr.eval, Dok.make]⟩
  | add d k v ih => exact (addEntry_spec ih k v).1
  | combine a m1 b m2 iha ihb => exact (combine_spec iha ihb m1 m2).1

/-! ## The properties -/

/-- **C52.** However a matrix was accumulated, each element is the exact sum up to `10^-10` per addition that touched it. -/
theorem C52_accumulates (e : DExpr K) (k : Key) : |look e.eval.table k - e.den k| ≤ e.slack k := by
  induction e with
  | make => simp [DExpr.eval, Dok.make, look_nil, DExpr.den, DExpr.slack]
  | add d k' v ih =>
    obtain ⟨-, h2, h3, -⟩ := addEntry_spec (dexpr_wf d) k' v
    simp only [DExpr.eval, DExpr.den, DExpr.slack]
    by_cases hk : k = k'
    · subst hk
      rw [h3, if_pos rfl, if_pos rfl]
      split_ifs with hs
      · rw [abs_le] at *; constructor <;> linarith [hs.1, hs.2, ih.1, ih.2]
      · have : (0 : K) ≤ 1 / 10 ^ 10 := by positivity
        have e : look d.eval.table k + v - (d.den k + v) = look d.eval.table k - d.den k := by ring
        rw [e]; linarith
    · rw [h2 k hk, if_neg hk, if_neg hk, add_zero, add_zero]; exact ih
  | combine a m1 b m2 iha ihb =>
    obtain ⟨-, h2⟩ := combine_spec (dexpr_wf a) (dexpr_wf b) m1 m2
    simp only [DExpr.eval, DExpr.den, DExpr.slack]
    have h3 : |m1 * look a.eval.table k + m2 * look b.eval.table k - (m1 * a.den k + m2 * b.den k)| ≤
        |m1| * a.slack k + |m2| * b.slack k := by
      have e : m1 * look a.eval.table k + m2 * look b.eval.table k - (m1 * a.den k + m2 * b.den k) =
        m1 * (look a.eval.table k - a.den k) + m2 * (look b.eval.table k - b.den k) := by ring
      rw [e]
      refine (abs_add_le _ _).trans ?_
      rw [abs_mul, abs_mul]
      gcongr
    rw [h2 k]
    split_ifs with hs
    · have hs := hs.2
      rw [abs_le] at *; constructor <;> linarith [hs.1, hs.2, h3.1, h3.2]
    · have : (0 : K) ≤ 1 / 10 ^ 10 := by positivity
      linarith

/-- **C52.** It is exact if the element never came within `10^-10` of zero without being zero. -/
theorem C52_exact (e : DExpr K) (k : Key) (h : e.Clear k) : look e.eval.table k = e.den k := by
  induction e with
  | make => rfl
  | add d k' v ih =>
    obtain ⟨-, h2, h3, -⟩ := addEntry_spec (dexpr_wf d) k' v
    simp only [DExpr.eval, DExpr.den]
    by_cases hk : k = k'
    · subst hk
      have hc := h.2
      rw [if_pos rfl] at hc
      rw [h3, if_pos rfl, ih h.1]
      split_ifs with hs
      · rcases hc with hc | hc
        · exact hc.symm
        · exact absurd hs (not_le.mpr hc)
      · rfl
    · rw [h2 k hk, if_neg hk, add_zero, ih h.1]
  | combine a m1 b m2 iha ihb =>
    obtain ⟨-, h2⟩ := combine_spec (dexpr_wf a) (dexpr_wf b) m1 m2
    simp only [DExpr.eval, DExpr.den]
    rw [h2 k, iha h.1, ihb h.2.1]
    split_ifs with hs
    · rcases h.2.2 with hc | hc
      · exact hc.symm
      · exact absurd hs.2 (not_le.mpr hc)
    · rfl

/-- **C52.** The entry counter, by which the loops over the table are bounded, is the size of the table; keys are distinct and no
row lies beyond the row counter. -/
theorem C52_counters (e : DExpr K) : e.eval.numEntries = e.eval.table.length ∧ (keys e.eval.table).Nodup ∧
    ∀ k ∈ keys e.eval.table, k.1 ≤ e.eval.numRows := ⟨(dexpr_wf e).count, (dexpr_wf e).nodup, (dexpr_wf e).rows⟩

/-- `n` additions of `v` at `k` -/
def addMany (k : Key) (v : K) : ℕ → DExpr K
  | 0 => .make
  | n + 1 => .add (addMany k v n) k v

/-- **C52.** Entries of at most `10^-10` are lost however often they are added. -/
theorem C52_small_lost (k : Key) (v : K) (hv : |v| ≤ 1 / 10 ^ 10) (n : ℕ) :
    look (addMany k v n).eval.table k = 0 ∧ (addMany k v n).den k = n * v := by
  induction n with
  | zero => exact ⟨rfl, by simp [addMany, DExpr.den]⟩
  | succ n ih =>
    obtain ⟨-, -, h3, -⟩ := addEntry_spec (dexpr_wf (addMany k v n)) k v
    refine ⟨?_, ?_⟩
    · simp only [addMany, DExpr.eval]
      rw [h3, ih.1, zero_add, if_pos hv]
    · simp only [addMany, DExpr.den, ih.2]
      rw [if_pos True.intro]; push_cast; ring

/-- **C52.** When every row before the last filled one is filled, the compressed matrix given to the solver multiplies like the
sum, whatever the memory of its row pointers contained. -/
theorem C52_compressed (e : DExpr K) (N : ℕ) (hN : ∀ k ∈ keys e.eval.table, k.2 < N)
    (hrows : ∀ i, (∃ k ∈ keys e.eval.table, i < k.1) → ∃ k ∈ keys e.eval.table, k.1 = i)
    (junk : List ℕ) (hj : junk.length = e.eval.numRows + 2) :
    (∀ x : List K, (e.eval.toCsr junk).mulVec x =
      (List.range (e.eval.numRows + 1)).map (fun i => ∑ j ∈ Finset.range N, look e.eval.table (i, j) * x.getD j 0)) := by
  intro x
  have hd := dexpr_wf e
  have hp := (sorted_perm e.eval.table).map Prod.fst
  have hs : RowSorted ((sorted e.eval.table).map Prod.fst) := by
    unfold RowSorted
    rw [List.pairwise_map]; exact sorted_rows e.eval.table
  obtain ⟨h1, h2⟩ := rowPtrs_get junk (e.eval.numRows + 1) ((sorted e.eval.table).map Prod.fst) hs (by omega)
    (fun k hk => by have := hd.rows k (hp.mem_iff.mp hk); omega)
  refine (csr_good e.eval.table hd.nodup (e.eval.numRows + 1) N hN _ h1 ?_).1 x
  intro i hi
  rw [h2 i hi, before_perm hp, if_pos]
  simp only [hp.mem_iff]
  by_cases h : ∃ k ∈ keys e.eval.table, i < k.1
  · exact Or.inl (hrows i h)
  · push Not at h
    by_cases h' : ∃ k ∈ keys e.eval.table, k.1 = i
    · exact Or.inl h'
    · push Not at h'
      right
      intro k hk
      have := h k hk
      have := h' k hk
      omega

/-- **C52.** Otherwise the product depends on what the memory contained: here rows 0 and 2 are filled. -/
theorem C52_gap_reads_memory : ∃ (e : DExpr ℚ) (junk₁ junk₂ : List ℕ) (x : List ℚ), junk₁.length = e.eval.numRows + 2 ∧
    junk₂.length = e.eval.numRows + 2 ∧ (e.eval.toCsr junk₁).mulVec x ≠ (e.eval.toCsr junk₂).mulVec x :=
  ⟨.add (.add .make (0, 0) 2) (2, 2) 5, [0, 0, 0, 0], [1, 1, 1, 1], [1, 1, 1], by decide +kernel, by decide +kernel, by decide +kernel⟩

/-! ## The hypotheses can be met -/

/-- a full 2 x 2 matrix from two summands -/
def dokSample : DExpr ℚ :=
  .combine (.add (.add (.add .make (1, 0) 3) (0, 0) 2) (0, 1) 1) 2 (.add (.add .make (1, 1) 4) (1, 0) (-1)) 1

example : dokSample.eval.table = [((1, 0), 5), ((0, 0), 4), ((0, 1), 2), ((1, 1), 4)] := by decide +kernel

example : dokSample.Clear (1, 0) := by
  simp only [dokSample, DExpr.Clear, DExpr.den]
  norm_num

example : (∀ k ∈ keys dokSample.eval.table, k.2 < 2) ∧
    (∀ i, (∃ k ∈ keys dokSample.eval.table, i < k.1) → ∃ k ∈ keys dokSample.eval.table, k.1 = i) := by
  have e : keys dokSample.eval.table = [(1, 0), (0, 0), (0, 1), (1, 1)] := by decide +kernel
  rw [e]
  refine ⟨by simp, fun i hi => ?_⟩
  simp at hi
  exact ⟨(0, 0), by simp, by omega⟩

example : (dokSample.eval.toCsr [9, 9, 9]).mulVec [1, 10] = [24, 45] := by decide +kernel

end Verif.Sparse
