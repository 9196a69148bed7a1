import Verif.NodeAvg.Lemmas
import Mathlib.Data.Rat.Defs
import Mathlib.Data.Rat.Cast.CharZero
import Mathlib.Algebra.Order.Ring.Rat
import Mathlib.Algebra.Field.Rat
import Mathlib.Algebra.CharZero.Defs
import Mathlib.Tactic.FieldSimp

/-!
# C08: node values are averages over the corners meeting at the node
-/

set_option linter.unusedSectionVars false

namespace Verif.NodeAvg

variable {K : Type*} [Field K]

theorem writes_spec (flat vvi : List ℕ) (h : IsArgsort flat vvi) (hg : NoGaps flat) (val : ℕ → K) :
    (∀ v x, (v, x) ∈ averageWrites flat vvi val → v ∈ flat) ∧
    (∀ v ∈ flat, (averageWrites flat vvi val).lookup v = some (cornerMean flat val v)) := by
  have hpos : ∀ v, 0 < perNode flat v ↔ v ∈ flat := fun v => List.count_pos_iff
  have hgap : ∀ v w, perNode flat v = 0 → v ≤ w → perNode flat w = 0 := by
    intro v w h0 hle
    by_contra hne
    have hw : w ∈ flat := (hpos w).mp (Nat.pos_of_ne_zero hne)
    have := (hpos v).mpr (hg v w hw hle)
    omega
  obtain ⟨new, e1, e2, e3, e4⟩ := avg_loop (nodeOf flat) (perNode flat) val hgap vvi (avgInit : AvgState K) h.sorted
    (fun c _ => Nat.zero_le _)
    (by show 0 + (at_ (nodeOf flat) vvi 0).length = perNode flat 0; rw [at_length flat vvi h]; omega)
    (by show perNode flat 0 = 0 ∨ 0 < perNode flat 0; omega)
    (fun w _ => at_length flat vvi h w) (fun _ => rfl)
  have hw : averageWrites flat vvi val = new := by
    unfold averageWrites
    rw [e1]; simp [avgInit]
  rw [hw]
  refine ⟨fun v x hx => (hpos v).mp (e2 v x hx).2, ?_⟩
  intro v hv
  have hp := (hpos v).mpr hv
  unfold cornerMean
  rw [card_cornersAt, ← at_sum flat vvi h val v]
  rcases Nat.eq_zero_or_pos v with rfl | h0
  · have := e4 hp
    simpa [avgInit] using this
  · exact e3 v h0 hp

/-- C08: with no unused node below a used one, the smooth value at every used node is the mean of the values at all corners
meeting there, whatever order the sort gave to equal keys. -/
theorem C08_node_value_is_mean_partial (flat vvi : List ℕ) (h : IsArgsort flat vvi) (hg : NoGaps flat) (val : ℕ → K) (v : ℕ)
    (hv : v ∈ flat) : nodeAverage flat vvi val v = cornerMean flat val v := by
  unfold nodeAverage applyWrites
  rw [(writes_spec flat vvi h hg val).2 v hv]
  rfl

/-- C08: the same for centroid averaging: each corner contributes the centroid value of its triangle. -/
theorem C08_centroid_average_is_mean_partial (flat vvi : List ℕ) (h : IsArgsort flat vvi) (hg : NoGaps flat) (cent : ℕ → K)
    (v : ℕ) (hv : v ∈ flat) :
    nodeAverageCentroid flat vvi cent v = cornerMean flat (fun c => cent (c / 3)) v :=
  C08_node_value_is_mean_partial flat vvi h hg _ v hv

/-- C08: exactly the used nodes are written; an unused node keeps the initial zero. -/
theorem C08_written_nodes (flat vvi : List ℕ) (h : IsArgsort flat vvi) (hg : NoGaps flat) (val : ℕ → K) (v : ℕ) :
    ((∃ x, (v, x) ∈ averageWrites flat vvi val) ↔ v ∈ flat) ∧ (v ∉ flat → nodeAverage flat vvi val v = 0) := by
  obtain ⟨h1, h2⟩ := writes_spec flat vvi h hg val
  constructor
  · constructor
    · rintro ⟨x, hx⟩; exact h1 v x hx
    · intro hv
      obtain ⟨l1, l2, hl, _⟩ := List.lookup_eq_some_iff.mp (h2 v hv)
      exact ⟨cornerMean flat val v, by rw [hl]; simp⟩
  · intro hv
    unfold nodeAverage applyWrites
    cases hl : (averageWrites flat vvi val).lookup v with
    | none => rfl
    | some y =>
      obtain ⟨l1, l2, hl', _⟩ := List.lookup_eq_some_iff.mp hl
      exact absurd (h1 v y (by rw [hl']; simp)) hv

/-- C08: setting node values gives every corner at a listed node that value and leaves all other corners alone. -/
theorem C08_set_node_values (flat vvi : List ℕ) (h : IsArgsort flat vvi) (pairs : List (ℕ × K))
    (hn : (pairs.map Prod.fst).Nodup) (vals : ℕ → K) (c : ℕ) :
    (∀ a, (∃ v, flat[c]? = some v ∧ (v, a) ∈ pairs) → setVertexValues flat vvi pairs vals c = a) ∧
    ((∀ v, flat[c]? = some v → v ∉ pairs.map Prod.fst) → setVertexValues flat vvi pairs vals c = vals c) := by
  unfold setVertexValues
  induction pairs generalizing vals with
  | nil => simp
  | cons p ps ih =>
    rw [List.map_cons, List.nodup_cons] at hn
    rw [List.foldl_cons]
    obtain ⟨i1, i2⟩ := ih hn.2 (setNode vvi (nodeIndex flat p.1) (perNode flat p.1) p.2 vals)
    constructor
    · rintro a ⟨v, hv, hm⟩
      rcases List.mem_cons.mp hm with rfl | hm
      · rw [i2, setNode_apply flat vvi h, if_pos hv]
        intro v' hv' hin
        rw [hv] at hv'
        cases hv'
        exact hn.1 hin
      · exact i1 a ⟨v, hv, hm⟩
    · intro hno
      rw [i2, setNode_apply flat vvi h, if_neg]
      · intro hh
        exact hno _ hh (by simp)
      · intro v hv hin
        exact hno v hv (by rw [List.map_cons]; exact List.mem_cons_of_mem _ hin)

/-- C08: reading smooth node values after setting all of them returns what was set (for used nodes). -/
theorem C08_get_after_set [CharZero K] (flat vvi : List ℕ) (h : IsArgsort flat vvi) (hg : NoGaps flat) (n : ℕ)
    (hn : ∀ v ∈ flat, v < n) (A : ℕ → K) (vals : ℕ → K) (v : ℕ) (hv : v ∈ flat) :
    nodeAverage flat vvi (setVertexValues flat vvi ((List.range n).map (fun v => (v, A v))) vals) v = A v := by
  rw [C08_node_value_is_mean_partial flat vvi h hg _ v hv]
  unfold cornerMean
  have hs : ∀ c ∈ cornersAt flat v, setVertexValues flat vvi ((List.range n).map (fun v => (v, A v))) vals c = A v := by
    intro c hc
    rw [mem_cornersAt] at hc
    apply (C08_set_node_values flat vvi h _ _ vals c).1
    · refine ⟨v, hc, ?_⟩
      rw [List.mem_map]
      exact ⟨v, List.mem_range.mpr (hn v hv), rfl⟩
    · rw [List.map_map]
      simpa [Function.comp_def] using List.nodup_range
  rw [Finset.sum_congr rfl hs, Finset.sum_const, nsmul_eq_mul]
  have : ((cornersAt flat v).card : K) ≠ 0 := by
    rw [card_cornersAt, Nat.cast_ne_zero]
    exact Nat.pos_iff_ne_zero.mp (List.count_pos_iff.mpr hv)
  field_simp

/-- C08: smoothing makes the corners at a node agree, keeps every node average, and doing it twice changes nothing more. -/
theorem C08_smooth [CharZero K] (flat vvi : List ℕ) (h : IsArgsort flat vvi) (hg : NoGaps flat) (n : ℕ)
    (hn : ∀ v ∈ flat, v < n) (vals : ℕ → K) :
    (∀ c v, flat[c]? = some v → smooth flat vvi n vals c = cornerMean flat vals v) ∧
    (∀ v ∈ flat, nodeAverage flat vvi (smooth flat vvi n vals) v = nodeAverage flat vvi vals v) ∧
    smooth flat vvi n (smooth flat vvi n vals) = smooth flat vvi n vals := by
  have hnd : (((List.range n).map (fun v => (v, nodeAverage flat vvi vals v))).map Prod.fst).Nodup := by
    rw [List.map_map]
    simpa [Function.comp_def] using List.nodup_range
  have h1 : ∀ c v, flat[c]? = some v → smooth flat vvi n vals c = cornerMean flat vals v := by
    intro c v hc
    have hv : v ∈ flat := List.mem_of_getElem? hc
    rw [← C08_node_value_is_mean_partial flat vvi h hg vals v hv]
    apply (C08_set_node_values flat vvi h _ hnd vals c).1
    exact ⟨v, hc, List.mem_map.mpr ⟨v, List.mem_range.mpr (hn v hv), rfl⟩⟩
  have h2 : ∀ v ∈ flat, nodeAverage flat vvi (smooth flat vvi n vals) v = nodeAverage flat vvi vals v :=
    fun v hv => C08_get_after_set flat vvi h hg n hn _ vals v hv
  refine ⟨h1, h2, ?_⟩
  funext c
  have hnd2 : (((List.range n).map (fun v => (v, nodeAverage flat vvi (smooth flat vvi n vals) v))).map Prod.fst).Nodup := by
    rw [List.map_map]
    simpa [Function.comp_def] using List.nodup_range
  cases hc : flat[c]? with
  | none =>
    apply (C08_set_node_values flat vvi h _ hnd2 _ c).2
    intro v hv; rw [hc] at hv; cases hv
  | some v =>
    have hv : v ∈ flat := List.mem_of_getElem? hc
    rw [h1 c v hc, ← C08_node_value_is_mean_partial flat vvi h hg vals v hv, ← h2 v hv]
    apply (C08_set_node_values flat vvi h _ hnd2 _ c).1
    exact ⟨v, hc, List.mem_map.mpr ⟨v, List.mem_range.mpr (hn v hv), rfl⟩⟩

/-- C08: disagreement with the full statement. If node 0 is unused, the loop drops a corner and reports the value of node 2
at node 1. -/
theorem C08_unused_node_breaks_average : ∃ (flat vvi : List ℕ) (val : ℕ → ℚ) (v : ℕ), IsArgsort flat vvi ∧ v ∈ flat ∧
    nodeAverage flat vvi val v ≠ cornerMean flat val v := by
  refine ⟨[1, 2, 3], [0, 1, 2], fun c => c, 1, ⟨List.Perm.refl _, by decide⟩, by decide, ?_⟩
  decide +kernel

/-- C08: the array filled by `get_vertex_values(smooth=True)` has one entry per full node, but every used node is written;
so a mesh with a used ghost node (number not below the number of full nodes) is written outside the array. -/
theorem C08_ghost_nodes_written_out_of_bounds (flat vvi : List ℕ) (h : IsArgsort flat vvi) (hg : NoGaps flat) (val : ℕ → K)
    (numberOfFullNodes w : ℕ) (hw : w ∈ flat) (hge : numberOfFullNodes ≤ w) :
    ∃ p ∈ averageWrites flat vvi val, numberOfFullNodes ≤ p.1 := by
  obtain ⟨x, hx⟩ := (C08_written_nodes flat vvi h hg val w).1.mpr hw
  exact ⟨_, hx, hge⟩

/-- Two triangles (0,1,2), (2,1,3): the hypotheses hold and nodes 1, 2 average two corners. -/
def exFlat : List ℕ := [0, 1, 2, 2, 1, 3]

example : IsArgsort exFlat [0, 4, 1, 2, 3, 5] ∧ NoGaps exFlat := by
  refine ⟨⟨by decide, by decide⟩, ?_⟩
  intro v w hw hle
  simp [exFlat] at hw ⊢
  omega

example : nodeAverage exFlat [0, 4, 1, 2, 3, 5] (fun c => (c : ℚ)) 1 = 5 / 2 := by decide +kernel

end Verif.NodeAvg
