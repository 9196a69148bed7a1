import Verif.Fit.Props

/-! # C63: a second call, and a sample -/

namespace Verif.Fit

set_option linter.unusedSectionVars false

open Verif.Polygon (Pt Flat)
open Verif.Quad (Tri)
open Verif.Sparse (DExpr Dok Key look keys bump DWF)

variable {K : Type*} [Field K] [LinearOrder K] [IsStrictOrderedRing K]

theorem keys_zeroCommon (a b : Dok K) : keys (zeroCommon a b).table = keys b.table := by
  simp [zeroCommon, keys, List.map_map]

theorem wf_zeroCommon {a b : Dok K} (hb : DWF b) : DWF (zeroCommon a b) := by
  refine ⟨by rw [keys_zeroCommon]; exact hb.nodup, by rw [keys_zeroCommon]; exact hb.rows, ?_⟩
  have := hb.count
  simpa [zeroCommon] using this

/-- **C63 (disagreement).** Asking the same object for the fit again, without new points, does not give the same surface: `build_matrix_B` has
overwritten the smoothing matrix and emptied the matrix of the points. Where every entry of the latter also occurs in the smoothing matrix (no right
angles), the second surface is the first divided by `alpha`, which by default means a thousand times higher. -/
theorem C63_second_fit (sq : K → K) (m : Mesh K) (hm : Fits m) (alpha : K) (ha : 0 < alpha) (first : List (Pt K × K))
    (rest : List (List (Pt K × K))) (B : Dok K) (b : List K) (h : (run sq m alpha first rest).2 = .ok (B, b))
    (hk : ∀ k ∈ keys (feedExpr sq m first rest).eval.table, k ∈ keys (smoothExpr m).eval.table)
    (hc : ∀ k, look B.table k = 0 ∨ 1 / 10 ^ 10 < |alpha * look B.table k|) :
    ∃ B₂ : Dok K, ((run sq m alpha first rest).1.fit sq none).2 = .ok (B₂, b) ∧ (∀ k, look B₂.table k = alpha * look B.table k) ∧
      ∀ x, Solves m.nodes B.table b x → Solves m.nodes B₂.table b (x.map (· / alpha)) := by
  have hf := fed_all sq hm alpha first rest
  set o := rest.foldl (Obj.addBlock sq) ((Obj.new m alpha).addBlock sq first) with ho
  have hrun : run sq m alpha first rest = o.fit sq none := rfl
  have hnot : ¬ (o.count < o.mesh.nodes ∧ o.alpha = 0) := by
    rw [hf.alpha]; exact fun h => ha.ne' h.2
  have hfit : o.fit sq none = (⟨o.mesh, o.alpha, (fitExpr sq m alpha first rest).eval,
      some (zeroCommon (smoothExpr m).eval (feedExpr sq m first rest).eval), o.Atz, o.count⟩, .ok ((fitExpr sq m alpha first rest).eval, o.Atz)) := by
    unfold Obj.fit
    simp only [hf.AtA, hnot, if_false]
    rw [hf.D, hf.alpha]
    rfl
  rw [hrun, hfit] at h
  simp only [Except.ok.injEq, Prod.mk.injEq] at h
  obtain ⟨rfl, rfl⟩ := h
  set A := (feedExpr sq m first rest).eval
  set D := (smoothExpr m).eval
  have hwA : DWF A := Verif.Sparse.dexpr_wf _
  obtain ⟨-, hlook⟩ := Verif.Sparse.combine_spec (Verif.Sparse.dexpr_wf (fitExpr sq m alpha first rest)) (wf_zeroCommon (a := D) hwA) alpha 1
  have hz : ∀ k, look (zeroCommon D A).table k = 0 := by
    intro k
    by_cases hkA : k ∈ keys A.table
    · have : look (zeroCommon D A).table k = if k ∈ keys A.table then (if (D.table.lookup k).isSome then 0 else look A.table k) else 0 :=
        Verif.Sparse.look_map_key A.table (fun k v => if (D.table.lookup k).isSome then 0 else v) k
      rw [this, if_pos hkA, if_pos (Verif.Sparse.lookup_isSome.mpr (hk k hkA))]
    · exact Verif.Sparse.look_of_not_mem (by rw [keys_zeroCommon]; exact hkA)
  have hB : ∀ k, look ((fitExpr sq m alpha first rest).eval.combine alpha (zeroCommon D A) 1).table k =
      alpha * look (fitExpr sq m alpha first rest).eval.table k := by
    intro k
    rw [hlook k, hz k, mul_zero, add_zero]
    split_ifs with hif
    · rcases hc k with h0 | h0
      · rw [h0, mul_zero]
      · exact absurd hif.2 (not_le.mpr h0)
    · rfl
  refine ⟨(fitExpr sq m alpha first rest).eval.combine alpha (zeroCommon D A) 1, ?_, hB, ?_⟩
  · rw [hrun, hfit]
    have e : alpha = o.alpha := hf.alpha.symm
    unfold Obj.fit
    simp only [hnot, if_false]
    rw [hf.alpha]
  · intro x hx i hi
    rw [← hx i hi]
    refine Finset.sum_congr rfl fun j _ => ?_
    rw [hB]
    have : (x.map (· / alpha)).getD j 0 = x.getD j 0 / alpha := by
      rw [List.getD_eq_getElem?_getD, List.getD_eq_getElem?_getD, List.getElem?_map]
      cases x[j]? <;> simp
    rw [this]
    have := ha.ne'
    field_simp

/-! ## The hypotheses can be met -/

/-- Two triangles with acute angles, four nodes. -/
def smMesh : Mesh ℚ :=
  ⟨4, [⟨(0, 1, 2), ⟨0, 0⟩, ⟨4, 0⟩, ⟨2, 3⟩, 6⟩, ⟨(1, 3, 2), ⟨4, 0⟩, ⟨6, 3⟩, ⟨2, 3⟩, 6⟩],
    .tip ⟨-3, 9, -3, 9⟩ [⟨0, ⟨0, 0⟩, ⟨4, 0⟩, ⟨2, 3⟩⟩, ⟨1, ⟨4, 0⟩, ⟨6, 3⟩, ⟨2, 3⟩⟩] 2⟩

/-- Two points in the mesh, one outside. -/
def smData : List (Pt ℚ × ℚ) := [(⟨2, 1⟩, 5), (⟨100, 100⟩, 9)]
def smRest : List (List (Pt ℚ × ℚ)) := [[(⟨4, 2⟩, 7)]]

theorem smMesh_fits : Fits smMesh where
  tree := ⟨1, ⟨-3, 9, -3, 9⟩, by
    have h1 : Verif.Quad.quadOfTri (⟨-3, 9, -3, 9⟩ : Verif.Quad.Box ℚ) ⟨0, ⟨0, 0⟩, ⟨4, 0⟩, ⟨2, 3⟩⟩ = 0 := by decide +kernel
    have h2 : Verif.Quad.quadOfTri (⟨-3, 9, -3, 9⟩ : Verif.Quad.Box ℚ) ⟨1, ⟨4, 0⟩, ⟨6, 3⟩, ⟨2, 3⟩⟩ = 0 := by decide +kernel
    simp [Verif.Quad.buildTree, Verif.Quad.insertTri, Verif.Quad.Tree.new, smMesh, h1, h2]⟩
  nodes := by
    intro e he
    simp only [smMesh, List.mem_cons, List.not_mem_nil, or_false] at he ⊢
    rcases he with rfl | rfl <;> decide
  proper := by
    intro e he
    simp only [smMesh, List.mem_cons, List.not_mem_nil, or_false] at he
    unfold Flat
    rcases he with rfl | rfl <;> norm_num
  area := by
    intro e he
    simp only [smMesh, List.mem_cons, List.not_mem_nil, or_false] at he
    rcases he with rfl | rfl <;> norm_num

theorem smMesh_connected : smMesh.Connected := by
  have e0 : (⟨(0, 1, 2), ⟨0, 0⟩, ⟨4, 0⟩, ⟨2, 3⟩, 6⟩ : Elem ℚ) ∈ smMesh.elems := by simp [smMesh]
  have e1 : (⟨(1, 3, 2), ⟨4, 0⟩, ⟨6, 3⟩, ⟨2, 3⟩, 6⟩ : Elem ℚ) ∈ smMesh.elems := by simp [smMesh]
  have to1 : ∀ i < smMesh.nodes, smMesh.Adjacent i 1 := by
    intro i hi
    have hi : i < 4 := hi
    obtain rfl | rfl | rfl | rfl : i = 0 ∨ i = 1 ∨ i = 2 ∨ i = 3 := by omega
    · exact ⟨_, e0, by decide, by decide⟩
    · exact ⟨_, e0, by decide, by decide⟩
    · exact ⟨_, e0, by decide, by decide⟩
    · exact ⟨_, e1, by decide, by decide⟩
  intro i hi j hj
  refine (Relation.ReflTransGen.single (to1 i hi)).tail ?_
  obtain ⟨e, he, h1, h2⟩ := to1 j hj
  exact ⟨e, he, h2, h1⟩

instance decClear : (e : DExpr ℚ) → (k : Key) → Decidable (e.Clear k)
  | .make, _ => isTrue trivial
  | .add d k v, k' =>
    have := decClear d k'
    inferInstanceAs (Decidable (_ ∧ (d.den k' + (if k' = k then v else 0) = 0 ∨ 1 / 10 ^ 10 < |d.den k' + if k' = k then v else 0|)))
  | .combine a m1 b m2, k =>
    have := decClear a k
    have := decClear b k
    inferInstanceAs (Decidable (_ ∧ _ ∧ (m1 * a.den k + m2 * b.den k = 0 ∨ 1 / 10 ^ 10 < |m1 * a.den k + m2 * b.den k|)))

theorem clear_out {k : Key} (es : List (Key × K)) (h : ∀ s ∈ es, k ≠ s.1) : ∀ d : DExpr K, d.den k = 0 → d.Clear k →
    (addAll es d).den k = 0 ∧ (addAll es d).Clear k := by
  induction es with
  | nil => intro d h1 h2; exact ⟨h1, h2⟩
  | cons s es ih =>
    intro d h1 h2
    refine ih (fun s hs => h s (by simp [hs])) (.add d s.1 s.2) ?_ ?_
    · simp only [DExpr.den, h1, if_neg (h s (by simp)), add_zero]
    · exact ⟨h2, Or.inl (by rw [h1, if_neg (h s (by simp)), add_zero])⟩

theorem smClear : ∀ k, (fitExpr id smMesh (1 / 10) smData smRest).Clear k := by
  intro k
  by_cases hk : k.1 < 4 ∧ k.2 < 4
  · obtain ⟨i, j⟩ := k
    have h : ∀ i ∈ List.range 4, ∀ j ∈ List.range 4, (fitExpr id smMesh (1 / 10) smData smRest).Clear (i, j) := by decide +kernel
    exact h i (List.mem_range.mpr hk.1) j (List.mem_range.mpr hk.2)
  · have h0 : ∀ es : List (Key × ℚ), (∀ s ∈ es, s.1.1 < 4 ∧ s.1.2 < 4) → ∀ s ∈ es, k ≠ s.1 := by
      intro es h s hs he
      exact hk (he ▸ h s hs)
    obtain ⟨a1, a2⟩ := clear_out (smMesh.elems.flatMap smoothEntries) (h0 _ (by decide +kernel)) .make rfl trivial
    obtain ⟨b1, b2⟩ := clear_out (smData.flatMap (entriesAt id smMesh)) (h0 _ (by decide +kernel)) .make rfl trivial
    obtain ⟨c1, c2⟩ := clear_out ([((⟨4, 2⟩ : Pt ℚ), (7 : ℚ))].flatMap (entriesAt id smMesh)) (h0 _ (by decide +kernel)) .make rfl trivial
    have d1 : (feedExpr id smMesh smData smRest).den k = 0 ∧ (feedExpr id smMesh smData smRest).Clear k := by
      simp only [feedExpr, smRest, List.foldl_cons, List.foldl_nil, blockExpr, DExpr.den, DExpr.Clear]
      exact ⟨by rw [b1, c1]; ring, b2, c2, Or.inl (by rw [b1, c1]; ring)⟩
    have a1' : (smoothExpr smMesh).den k = 0 := a1
    exact ⟨a2, d1.2, Or.inl (by rw [a1', d1.1]; ring)⟩

/-- The fit of the sample: all hypotheses of the theorems hold (`id` serves for the square root, which only normalises). -/
example : ∃ B b, (run id smMesh (1 / 10) smData smRest).2 = .ok (B, b) ∧ Solves smMesh.nodes B.table b [147 / 37, 227 / 37, 217 / 37, 297 / 37] := by
  obtain ⟨b, h, -, -⟩ := run_spec id smMesh_fits (1 / 10) smData smRest
  rw [if_neg (by norm_num)] at h
  refine ⟨_, _, h, ?_⟩
  have hb : b = [5 / 3, 4, 4, 7 / 3] := by
    have h' : (match (run id smMesh (1 / 10) smData smRest).2 with | .ok q => q.2 | .error _ => []) = [5 / 3, 4, 4, 7 / 3] := by decide +kernel
    rw [h] at h'
    exact h'
  have hs : ∀ i ∈ List.range 4, ∑ j ∈ Finset.range 4, look (fitExpr id smMesh (1 / 10) smData smRest).eval.table (i, j) *
      ([147 / 37, 227 / 37, 217 / 37, 297 / 37] : List ℚ).getD j 0 = ([5 / 3, 4, 4, 7 / 3] : List ℚ).getD i 0 := by decide +kernel
  intro i hi
  rw [hb]
  exact hs i (List.mem_range.mpr hi)

example : ∃ d ∈ smData ++ smRest.flatten, (smMesh.tree.search d.1).isSome := ⟨(⟨2, 1⟩, 5), by simp [smData], by decide +kernel⟩

example : ∀ x : ℚ, 0 < x → id x ≠ 0 := fun _ h => h.ne'

/-- The hypotheses on a second call hold for the sample too. -/
example : (∀ k ∈ keys (feedExpr id smMesh smData smRest).eval.table, k ∈ keys (smoothExpr smMesh).eval.table) ∧
    (∀ k, look (fitExpr id smMesh (1 / 10) smData smRest).eval.table k = 0 ∨
      1 / 10 ^ 10 < |(1 / 10 : ℚ) * look (fitExpr id smMesh (1 / 10) smData smRest).eval.table k|) := by
  refine ⟨by decide +kernel, fun k => ?_⟩
  have h : ∀ e ∈ (fitExpr id smMesh (1 / 10) smData smRest).eval.table,
      1 / 10 ^ 10 < |(1 / 10 : ℚ) * look (fitExpr id smMesh (1 / 10) smData smRest).eval.table e.1| := by decide +kernel
  by_cases hk : k ∈ keys (fitExpr id smMesh (1 / 10) smData smRest).eval.table
  · obtain ⟨e, he, rfl⟩ := List.mem_map.mp hk
    exact Or.inr (h e he)
  · exact Or.inl (Verif.Sparse.look_of_not_mem hk)

example : (∀ e ∈ smMesh.elems, e.js.1 ≠ e.js.2.1 ∧ e.js.1 ≠ e.js.2.2 ∧ e.js.2.1 ≠ e.js.2.2) ∧
    (∀ i < smMesh.nodes, ∃ e ∈ smMesh.elems, i = e.js.1 ∨ i = e.js.2.1 ∨ i = e.js.2.2) := by
  refine ⟨by decide +kernel, fun i hi => ?_⟩
  obtain ⟨e, he, h, -⟩ : smMesh.Adjacent i i := by
    have hi : i < 4 := hi
    obtain rfl | rfl | rfl | rfl : i = 0 ∨ i = 1 ∨ i = 2 ∨ i = 3 := by omega
    · exact ⟨⟨(0, 1, 2), ⟨0, 0⟩, ⟨4, 0⟩, ⟨2, 3⟩, 6⟩, by simp [smMesh], by decide, by decide⟩
    · exact ⟨⟨(0, 1, 2), ⟨0, 0⟩, ⟨4, 0⟩, ⟨2, 3⟩, 6⟩, by simp [smMesh], by decide, by decide⟩
    · exact ⟨⟨(0, 1, 2), ⟨0, 0⟩, ⟨4, 0⟩, ⟨2, 3⟩, 6⟩, by simp [smMesh], by decide, by decide⟩
    · exact ⟨⟨(1, 3, 2), ⟨4, 0⟩, ⟨6, 3⟩, ⟨2, 3⟩, 6⟩, by simp [smMesh], by decide, by decide⟩
  exact ⟨e, he, h⟩

end Verif.Fit
