import Verif.Fit.Lemmas

/-! # C63: fitting a smooth surface to points -/

namespace Verif.Fit

set_option linter.unusedSectionVars false

open Verif.Polygon (Pt Flat)
open Verif.Quad (Tri)
open Verif.Sparse (DExpr Dok Key look keys bump)

variable {K : Type*} [Field K] [LinearOrder K] [IsStrictOrderedRing K]

/-- A new object is given the blocks of points and then asked for the fit. -/
def run (sq : K → K) (m : Mesh K) (alpha : K) (first : List (Pt K × K)) (rest : List (List (Pt K × K))) :
    Obj K × Except FErr (Dok K × List K) :=
  (rest.foldl (Obj.addBlock sq) ((Obj.new m alpha).addBlock sq first)).fit sq none

theorem run_spec (sq : K → K) {m : Mesh K} (hm : Fits m) (alpha : K) (first : List (Pt K × K)) (rest : List (List (Pt K × K))) :
    ∃ b : List K, (run sq m alpha first rest).2 =
        (if (first ++ rest.flatten).length < m.nodes ∧ alpha = 0 then .error .tooFewPoints else .ok ((fitExpr sq m alpha first rest).eval, b)) ∧
      b.length = m.nodes ∧
      ∀ i, b.getD i 0 = ((obsOf sq m alpha (first ++ rest.flatten)).map fun o => o.c * o.w i * o.z).sum := by
  have h := fed_all sq hm alpha first rest
  refine ⟨(rest.foldl (Obj.addBlock sq) ((Obj.new m alpha).addBlock sq first)).Atz, ?_, h.len, fun i => ?_⟩
  · unfold run Obj.fit
    simp only [h.AtA, h.count, h.mesh, h.alpha, h.D]
    split_ifs <;> rfl
  · rw [h.Atz i]
    unfold obsOf
    rw [List.map_append, List.sum_append]
    have : ((elemObs alpha m).map fun o => o.c * o.w i * o.z).sum = 0 := by
      unfold elemObs
      rw [flat_sum]
      apply List.sum_eq_zero
      simp
    rw [this, zero_add]

/-- The fit succeeded with this system. -/
theorem run_ok (sq : K → K) {m : Mesh K} (hm : Fits m) (alpha : K) (first : List (Pt K × K)) (rest : List (List (Pt K × K))) {B : Dok K} {b : List K}
    (h : (run sq m alpha first rest).2 = .ok (B, b)) : B = (fitExpr sq m alpha first rest).eval ∧ b.length = m.nodes ∧
      ∀ i, b.getD i 0 = ((obsOf sq m alpha (first ++ rest.flatten)).map fun o => o.c * o.w i * o.z).sum := by
  obtain ⟨b', h1, h2, h3⟩ := run_spec sq hm alpha first rest
  rw [h1] at h
  split_ifs at h
  simp only [Except.ok.injEq, Prod.mk.injEq] at h
  obtain ⟨rfl, rfl⟩ := h
  exact ⟨rfl, h2, h3⟩

theorem excess (sq : K → K) (hs : ∀ x, 0 < x → sq x ≠ 0) {m : Mesh K} (hm : Fits m) (alpha : K) (first : List (Pt K × K)) (rest : List (List (Pt K × K)))
    {B : Dok K} {b : List K} (h : (run sq m alpha first rest).2 = .ok (B, b)) (hc : ∀ k, (fitExpr sq m alpha first rest).Clear k)
    (x : List K) (hx : Solves m.nodes B.table b x) (g : List K) :
    cost m alpha (first ++ rest.flatten) g = cost m alpha (first ++ rest.flatten) x +
      ((obsOf sq m alpha (first ++ rest.flatten)).map fun o => o.c * (o.val m.nodes g - o.val m.nodes x) ^ 2).sum := by
  obtain ⟨rfl, -, h3⟩ := run_ok sq hm alpha first rest h
  rw [← total_eq_cost sq hs hm, ← total_eq_cost sq hs hm]
  apply normal_equations
  intro i hi
  rw [← h3 i, ← hx i hi]
  refine Finset.sum_congr rfl fun j _ => ?_
  rw [Verif.Sparse.C52_exact _ _ (hc (i, j)), fit_den]

theorem obs_nonneg (sq : K → K) {m : Mesh K} (hm : Fits m) {alpha : K} (ha : 0 ≤ alpha) (data : List (Pt K × K)) :
    ∀ o ∈ obsOf sq m alpha data, 0 ≤ o.c := by
  intro o ho
  unfold obsOf at ho
  rcases List.mem_append.mp ho with ho | ho
  · unfold elemObs at ho
    obtain ⟨e, he, h⟩ := List.mem_flatMap.mp ho
    have := mul_nonneg ha (hm.area e he).le
    simp only [List.mem_cons, List.not_mem_nil, or_false] at h
    rcases h with rfl | rfl <;> exact this
  · obtain ⟨d, hd, h⟩ := List.mem_flatMap.mp ho
    unfold pointObs at h
    cases hsr : m.tree.search d.1 with
    | none => rw [hsr] at h; simp at h
    | some t =>
      rw [hsr] at h
      simp only [List.mem_cons, List.not_mem_nil, or_false] at h
      rw [h]; exact zero_le_one

/-! ## The properties -/

/-- **C63.** In however many blocks the points are given, a solution of the system that `fit` builds is the surface for which the squared distance from the
points in the mesh plus `alpha` times the integral of the squared slope is least. -/
theorem C63_minimises (sq : K → K) (hs : ∀ x, 0 < x → sq x ≠ 0) (m : Mesh K) (hm : Fits m) (alpha : K) (ha : 0 ≤ alpha) (first : List (Pt K × K))
    (rest : List (List (Pt K × K))) (B : Dok K) (b : List K) (h : (run sq m alpha first rest).2 = .ok (B, b))
    (hc : ∀ k, (fitExpr sq m alpha first rest).Clear k) (x : List K) (hx : Solves m.nodes B.table b x) (g : List K) :
    cost m alpha (first ++ rest.flatten) x ≤ cost m alpha (first ++ rest.flatten) g := by
  rw [excess sq hs hm alpha first rest h hc x hx g]
  have := list_sum_nonneg (obsOf sq m alpha (first ++ rest.flatten)) (fun o => o.c * (o.val m.nodes g - o.val m.nodes x) ^ 2)
    fun o ho => mul_nonneg (obs_nonneg sq hm ha _ o ho) (sq_nonneg _)
  linarith

/-- A surface as good as a solution has the same slopes (if `alpha` is positive) and the same heights at the points. -/
theorem same_obs (sq : K → K) (hs : ∀ x, 0 < x → sq x ≠ 0) {m : Mesh K} (hm : Fits m) {alpha : K} (ha : 0 ≤ alpha) {first : List (Pt K × K)}
    {rest : List (List (Pt K × K))} {B : Dok K} {b : List K} (h : (run sq m alpha first rest).2 = .ok (B, b))
    (hc : ∀ k, (fitExpr sq m alpha first rest).Clear k) {x : List K} (hx : Solves m.nodes B.table b x) {g : List K}
    (hg : cost m alpha (first ++ rest.flatten) g ≤ cost m alpha (first ++ rest.flatten) x) :
    ∀ o ∈ obsOf sq m alpha (first ++ rest.flatten), o.c * (o.val m.nodes g - o.val m.nodes x) ^ 2 = 0 := by
  rw [excess sq hs hm alpha first rest h hc x hx g] at hg
  have hn : ∀ o ∈ obsOf sq m alpha (first ++ rest.flatten), 0 ≤ o.c * (o.val m.nodes g - o.val m.nodes x) ^ 2 :=
    fun o ho => mul_nonneg (obs_nonneg sq hm ha _ o ho) (sq_nonneg _)
  have := list_sum_nonneg _ _ hn
  exact list_sum_zero _ _ hn (by linarith)

/-- **C63.** With positive smoothing on a connected mesh and one point in it, that surface is the only one: any other values at the nodes
cost more. -/
theorem C63_unique (sq : K → K) (hs : ∀ x, 0 < x → sq x ≠ 0) (m : Mesh K) (hm : Fits m) (hcon : m.Connected) (alpha : K) (ha : 0 < alpha) (first : List (Pt K × K))
    (rest : List (List (Pt K × K))) (hp : ∃ d ∈ first ++ rest.flatten, (m.tree.search d.1).isSome)
    (B : Dok K) (b : List K) (h : (run sq m alpha first rest).2 = .ok (B, b))
    (hc : ∀ k, (fitExpr sq m alpha first rest).Clear k) (x : List K) (hx : Solves m.nodes B.table b x) (g : List K)
    (hg : cost m alpha (first ++ rest.flatten) g ≤ cost m alpha (first ++ rest.flatten) x) :
    ∀ i < m.nodes, g.getD i 0 = x.getD i 0 := by
  have ho := same_obs sq hs hm ha.le h hc hx hg
  set df : ℕ → K := fun i => g.getD i 0 - x.getD i 0 with hdf
  have hel : ∀ e ∈ m.elems, df e.js.2.1 = df e.js.1 ∧ df e.js.2.2 = df e.js.1 := by
    intro e he
    have hb := hm.nodes e he
    have hw : 0 < alpha * e.area := mul_pos ha (hm.area e he)
    have h1 := ho ⟨alpha * e.area, corner e.js (grads e).1.1 (grads e).2.1.1 (grads e).2.2.1, 0⟩
      (List.mem_append_left _ (List.mem_flatMap.mpr ⟨e, he, by simp⟩))
    have h2 := ho ⟨alpha * e.area, corner e.js (grads e).1.2 (grads e).2.1.2 (grads e).2.2.2, 0⟩
      (List.mem_append_left _ (List.mem_flatMap.mpr ⟨e, he, by simp⟩))
    simp only [corner_val m.nodes e.js hb, mul_eq_zero, hw.ne', false_or, pow_eq_zero_iff, ne_eq, OfNat.ofNat_ne_zero, not_false_eq_true] at h1 h2
    obtain ⟨g1, g2⟩ := grads_plane e (df e.js.1) (df e.js.2.1) (df e.js.2.2)
    obtain ⟨p1, p2, p3⟩ := plane_spec e.a e.b e.c (hm.proper e he) (df e.js.1) (df e.js.2.1) (df e.js.2.2)
    have z1 : (plane e.a e.b e.c (df e.js.1) (df e.js.2.1) (df e.js.2.2)).2.1 = 0 := by
      rw [← g1, ← h1]; simp only [hdf]; ring
    have z2 : (plane e.a e.b e.c (df e.js.1) (df e.js.2.1) (df e.js.2.2)).2.2 = 0 := by
      rw [← g2, ← h2]; simp only [hdf]; ring
    rw [z1, z2] at p1 p2 p3
    exact ⟨by linarith, by linarith⟩
  have hadj : ∀ i j, m.Adjacent i j → df i = df j := by
    rintro i j ⟨e, he, hi, hj⟩
    obtain ⟨h1, h2⟩ := hel e he
    rcases hi with rfl | rfl | rfl <;> rcases hj with rfl | rfl | rfl <;> simp [h1, h2]
  have hchain : ∀ i j, Relation.ReflTransGen m.Adjacent i j → df i = df j := by
    intro i j hij
    induction hij with
    | refl => rfl
    | tail _ h2 ih => exact ih.trans (hadj _ _ h2)
  obtain ⟨d, hd, hsome⟩ := hp
  obtain ⟨t, ht⟩ := Option.isSome_iff_exists.mp hsome
  obtain ⟨e, he, h1, h2, h3, h4, h5⟩ := tri_of_search hm ht
  have hb := hm.nodes e he
  have hpo := ho ⟨1, corner e.js (Verif.Quad.sigma sq t d.1).1 (Verif.Quad.sigma sq t d.1).2.1 (Verif.Quad.sigma sq t d.1).2.2, d.2⟩
    (List.mem_append_right _ (List.mem_flatMap.mpr ⟨d, hd, by unfold pointObs; rw [ht, ← h2]; simp⟩))
  simp only [corner_val m.nodes e.js hb, one_mul, pow_eq_zero_iff, ne_eq, OfNat.ofNat_ne_zero, not_false_eq_true] at hpo
  obtain ⟨w1, -⟩ := Verif.Quad.weights_of_ne sq hs t (by rw [h3, h4, h5]; exact hm.proper e he) d.1
  obtain ⟨k1, k2⟩ := hel e he
  have hz : df e.js.1 = 0 := by
    generalize Verif.Quad.sigma sq t d.1 = w at w1 hpo
    have e1 : w.1 * df e.js.1 + w.2.1 * df e.js.2.1 + w.2.2 * df e.js.2.2 = 0 := by
      rw [← hpo]; simp only [hdf]; ring
    rw [k1, k2] at e1
    have e2 : (w.1 + w.2.1 + w.2.2) * df e.js.1 = 0 := by linear_combination e1
    rwa [w1, one_mul] at e2
  intro i hi
  have := hchain i e.js.1 (hcon i hi e.js.1 hb.1)
  rw [hz] at this
  simp only [hdf] at this
  linarith

/-- **C63.** Points all of one height give a horizontal surface, however strong the smoothing. -/
theorem C63_constant (sq : K → K) (hs : ∀ x, 0 < x → sq x ≠ 0) (m : Mesh K) (hm : Fits m) (hcon : m.Connected) (alpha : K) (ha : 0 < alpha) (first : List (Pt K × K))
    (rest : List (List (Pt K × K))) (hp : ∃ d ∈ first ++ rest.flatten, (m.tree.search d.1).isSome)
    (B : Dok K) (b : List K) (h : (run sq m alpha first rest).2 = .ok (B, b))
    (hc : ∀ k, (fitExpr sq m alpha first rest).Clear k) (x : List K) (hx : Solves m.nodes B.table b x) (c : K)
    (hd : ∀ d ∈ first ++ rest.flatten, d.2 = c) : ∀ i < m.nodes, x.getD i 0 = c := by
  have hval : ∀ i, i < m.nodes → (List.replicate m.nodes c).getD i 0 = c := by
    intro i hi
    rw [List.getD_eq_getElem?_getD, List.getElem?_replicate, if_pos hi]; rfl
  have hpl : ∀ e ∈ m.elems, e.plane (List.replicate m.nodes c) = (c, 0, 0) := by
    intro e he
    have hb := hm.nodes e he
    unfold Elem.plane plane
    rw [hval _ hb.1, hval _ hb.2.1, hval _ hb.2.2]
    simp
  have hcost : cost m alpha (first ++ rest.flatten) (List.replicate m.nodes c) = 0 := by
    unfold cost misfit roughness
    have e1 : (m.elems.map fun e => e.area * ((e.plane (List.replicate m.nodes c)).2.1 ^ 2 + (e.plane (List.replicate m.nodes c)).2.2 ^ 2)).sum = 0 := by
      apply List.sum_eq_zero
      intro v hv
      obtain ⟨e, he, rfl⟩ := List.mem_map.mp hv
      rw [hpl e he]; simp
    rw [e1, mul_zero, add_zero]
    apply List.sum_eq_zero
    intro v hv
    obtain ⟨d, hd', rfl⟩ := List.mem_map.mp hv
    cases hsr : m.tree.search d.1 with
    | none => rfl
    | some t =>
      obtain ⟨e, he, h1, -⟩ := tri_of_search hm hsr
      simp only [h1, hpl e he, hd d hd']
      ring
  have hnn : 0 ≤ cost m alpha (first ++ rest.flatten) x := by
    rw [← total_eq_cost sq hs hm]
    exact list_sum_nonneg _ _ fun o ho => mul_nonneg (obs_nonneg sq hm ha.le _ o ho) (sq_nonneg _)
  intro i hi
  rw [← C63_unique sq hs m hm hcon alpha ha first rest hp B b h hc x hx (List.replicate m.nodes c) (by rw [hcost]; exact hnn) i hi, hval i hi]

/-- **C63.** Blocks and order do not matter: two ways of giving the same points give the same system. -/
theorem C63_blocks (sq : K → K) (m : Mesh K) (hm : Fits m) (alpha : K) (first first' : List (Pt K × K))
    (rest rest' : List (List (Pt K × K))) (hperm : (first ++ rest.flatten).Perm (first' ++ rest'.flatten))
    (B B' : Dok K) (b b' : List K) (h : (run sq m alpha first rest).2 = .ok (B, b)) (h' : (run sq m alpha first' rest').2 = .ok (B', b'))
    (hc : ∀ k, (fitExpr sq m alpha first rest).Clear k) (hc' : ∀ k, (fitExpr sq m alpha first' rest').Clear k) :
    (∀ k, look B.table k = look B'.table k) ∧ b = b' := by
  obtain ⟨rfl, h2, h3⟩ := run_ok sq hm alpha first rest h
  obtain ⟨rfl, h2', h3'⟩ := run_ok sq hm alpha first' rest' h'
  have hobs : (obsOf sq m alpha (first ++ rest.flatten)).Perm (obsOf sq m alpha (first' ++ rest'.flatten)) :=
    List.Perm.append_left _ (List.Perm.flatMap_right _ hperm)
  refine ⟨fun k => ?_, ?_⟩
  · obtain ⟨i, j⟩ := k
    rw [Verif.Sparse.C52_exact _ _ (hc (i, j)), Verif.Sparse.C52_exact _ _ (hc' (i, j)), fit_den, fit_den]
    exact (hobs.map _).sum_eq
  · apply List.ext_getElem?
    intro i
    have e := (h3 i).trans (((hobs.map _).sum_eq).trans (h3' i).symm)
    rw [List.getD_eq_getElem?_getD, List.getD_eq_getElem?_getD] at e
    by_cases hi : i < m.nodes
    · rw [List.getElem?_eq_getElem (by omega), List.getElem?_eq_getElem (by omega)] at e ⊢
      simpa using e
    · rw [List.getElem?_eq_none (by omega), List.getElem?_eq_none (by omega)]

/-- **C63.** Points outside the mesh are ignored: without them the very same system results. -/
theorem C63_outside_ignored (sq : K → K) (m : Mesh K) (alpha : K) (ha : alpha ≠ 0) (data : List (Pt K × K)) :
    (run sq m alpha data []).2 = (run sq m alpha (data.filter fun d => (m.tree.search d.1).isSome) []).2 := by
  have e : ∀ s : Dok K × List K, data.foldl (addPoint sq m) s = (data.filter fun d => (m.tree.search d.1).isSome).foldl (addPoint sq m) s := by
    induction data with
    | nil => intro s; rfl
    | cons d data ih =>
      intro s
      cases hsr : m.tree.search d.1 with
      | none =>
        have e1 : addPoint sq m s d = s := by unfold addPoint; rw [hsr]
        rw [List.foldl_cons, e1, List.filter_cons_of_neg (by simp [hsr])]
        exact ih s
      | some t =>
        rw [List.foldl_cons, List.filter_cons_of_pos (by simp [hsr]), List.foldl_cons]
        exact ih _
  unfold run
  simp only [List.foldl_nil]
  unfold Obj.addBlock Obj.new Obj.fit buildPoints
  simp only [e, ha, and_false, if_false]

/-- **C63.** The fit is refused exactly when nothing was given, or without smoothing when fewer points than nodes were given; points outside the
mesh count. -/
theorem C63_refusals (sq : K → K) (m : Mesh K) (hm : Fits m) (alpha : K) :
    ((Obj.new m alpha).fit sq none).2 = .error .noMatrix ∧ ∀ first rest,
      ((run sq m alpha first rest).2 = .error .tooFewPoints ↔ (first ++ rest.flatten).length < m.nodes ∧ alpha = 0) ∧
        (run sq m alpha first rest).2 ≠ .error .noMatrix := by
  refine ⟨rfl, fun first rest => ?_⟩
  obtain ⟨b, h, -⟩ := run_spec sq hm alpha first rest
  rw [h]
  split_ifs with hif
  · exact ⟨⟨fun _ => hif, fun _ => rfl⟩, by simp⟩
  · exact ⟨⟨fun h => by simp at h, fun h => absurd h hif⟩, by simp⟩

/-- **C63.** Giving the last block to `fit` itself is the same as giving it before. -/
theorem C63_last_block (sq : K → K) (o : Obj K) (d : List (Pt K × K)) : o.fit sq (some d) = (o.addBlock sq d).fit sq none := rfl

/-! ## What the solver receives -/

/-- All entries lie in an `N x N` matrix. -/
structure Within (N : ℕ) (d : Dok K) : Prop where
  keys : ∀ k ∈ keys d.table, k.1 < N ∧ k.2 < N
  rows : d.numRows < N

theorem within_add {N : ℕ} {d : Dok K} (h : Within N d) {k : Key} (hk : k.1 < N ∧ k.2 < N) (v : K) : Within N (d.addEntry k v) := by
  unfold Dok.addEntry
  cases hl : d.table.lookup k with
  | some old =>
    simp only
    split_ifs
    · refine ⟨fun k' hk' => ?_, h.rows⟩
      simp only [Verif.Sparse.keys_del] at hk'
      exact h.keys k' (List.mem_filter.mp hk').1
    · refine ⟨fun k' hk' => ?_, h.rows⟩
      simp only [Verif.Sparse.keys_put] at hk'
      split_ifs at hk'
      · exact h.keys k' hk'
      · rcases List.mem_append.mp hk' with hk' | hk'
        · exact h.keys k' hk'
        · rw [List.mem_singleton.mp hk']; exact hk
  | none =>
    simp only
    have hr : (if d.numRows < k.1 then k.1 else d.numRows) < N := by
      have := h.rows
      split_ifs <;> omega
    split_ifs
    · exact ⟨h.keys, hk.1⟩
    · exact ⟨h.keys, h.rows⟩
    all_goals
      refine ⟨fun k' hk' => ?_, by first | exact hk.1 | exact h.rows⟩
      simp only [Verif.Sparse.keys, List.map_append, List.map_cons, List.map_nil] at hk'
      rcases List.mem_append.mp hk' with hk' | hk'
      · exact h.keys k' hk'
      · rw [List.mem_singleton.mp hk']; exact hk

theorem within_fold {N : ℕ} (l : List (Key × K)) (hl : ∀ s ∈ l, s.1.1 < N ∧ s.1.2 < N) : ∀ d : Dok K, Within N d →
    Within N (l.foldl (fun d e => d.addEntry e.1 e.2) d) := by
  induction l with
  | nil => intro d h; exact h
  | cons s l ih =>
    intro d h
    exact ih (fun s hs => hl s (by simp [hs])) _ (within_add h (hl s (by simp)) _)

theorem within_combine {N : ℕ} {a b : Dok K} (ha : Within N a) (hb : Within N b) (m1 m2 : K) : Within N (a.combine m1 b m2) := by
  unfold Dok.combine
  rw [List.foldl_map]
  have e : (List.foldl (fun (d : Dok K) (e : Key × K) => d.addEntry e.1 ((if (a.table.lookup e.1).isSome then 0 else e.2) * m2))
      ⟨a.table.map (fun e => (e.1, Verif.Sparse.mixed (b.table.lookup e.1) e.2 m1 m2)), a.numEntries, a.numRows⟩ b.table) =
      List.foldl (fun (d : Dok K) (e : Key × K) => d.addEntry e.1 e.2)
        ⟨a.table.map (fun e => (e.1, Verif.Sparse.mixed (b.table.lookup e.1) e.2 m1 m2)), a.numEntries, a.numRows⟩
        (b.table.map fun e => (e.1, (if (a.table.lookup e.1).isSome then 0 else e.2) * m2)) := by rw [List.foldl_map]
  rw [e]
  apply within_fold
  · intro s hs
    obtain ⟨e, he, rfl⟩ := List.mem_map.mp hs
    exact hb.keys e.1 (List.mem_map.mpr ⟨e, he, rfl⟩)
  · refine ⟨fun k hk => ?_, ha.rows⟩
    apply ha.keys k
    simpa [Verif.Sparse.keys, List.map_map] using hk

theorem within_make {N : ℕ} (hN : 0 < N) : Within N (Dok.make : Dok K) := ⟨by simp [Dok.make], hN⟩

theorem within_block (sq : K → K) {m : Mesh K} (hm : Fits m) (hN : 0 < m.nodes) (data : List (Pt K × K)) :
    Within m.nodes (blockExpr sq m data).eval := by
  unfold blockExpr
  rw [addAll_eval]
  refine within_fold _ ?_ _ (within_make hN)
  intro s hs
  obtain ⟨d, -, hd⟩ := List.mem_flatMap.mp hs
  unfold entriesAt at hd
  cases hsr : m.tree.search d.1 with
  | none => rw [hsr] at hd; simp at hd
  | some t =>
    rw [hsr] at hd
    obtain ⟨e, he, -, h2, -⟩ := tri_of_search hm hsr
    obtain ⟨b1, b2, b3⟩ := hm.nodes e he
    simp only [h2, pointEntries, List.mem_cons, List.not_mem_nil, or_false] at hd
    rcases hd with rfl | rfl | rfl | rfl | rfl | rfl | rfl | rfl | rfl <;> exact ⟨by assumption, by assumption⟩

theorem within_fit (sq : K → K) {m : Mesh K} (hm : Fits m) (hN : 0 < m.nodes) (alpha : K) (first : List (Pt K × K)) (rest : List (List (Pt K × K))) :
    Within m.nodes (fitExpr sq m alpha first rest).eval := by
  refine within_combine ?_ ?_ _ _
  · unfold smoothExpr
    rw [addAll_eval]
    refine within_fold _ ?_ _ (within_make hN)
    intro s hs
    obtain ⟨e, he, hd⟩ := List.mem_flatMap.mp hs
    obtain ⟨b1, b2, b3⟩ := hm.nodes e he
    simp only [smoothEntries, List.mem_cons, List.not_mem_nil, or_false] at hd
    rcases hd with rfl | rfl | rfl | rfl | rfl | rfl | rfl | rfl | rfl <;> exact ⟨by assumption, by assumption⟩
  · unfold feedExpr
    induction rest using List.reverseRecOn with
    | nil => exact within_block sq hm hN first
    | append_singleton rest b ih =>
      rw [List.foldl_append]
      exact within_combine ih (within_block sq hm hN b) _ _

/-- The slopes of a hat function do not both vanish. -/
theorem corner_slope {e : Elem K} (h : ¬ Flat e.a e.b e.c) {i : ℕ} (hi : i = e.js.1 ∨ i = e.js.2.1 ∨ i = e.js.2.2)
    (hd : e.js.1 ≠ e.js.2.1 ∧ e.js.1 ≠ e.js.2.2 ∧ e.js.2.1 ≠ e.js.2.2) :
    0 < corner e.js (grads e).1.1 (grads e).2.1.1 (grads e).2.2.1 i * corner e.js (grads e).1.1 (grads e).2.1.1 (grads e).2.2.1 i +
      corner e.js (grads e).1.2 (grads e).2.1.2 (grads e).2.2.2 i * corner e.js (grads e).1.2 (grads e).2.1.2 (grads e).2.2.2 i := by
  obtain ⟨d1, d2, d3⟩ := hd
  set ea : K := if i = e.js.1 then 1 else 0 with hea
  set eb : K := if i = e.js.2.1 then 1 else 0 with heb
  set ec : K := if i = e.js.2.2 then 1 else 0 with hec
  obtain ⟨g1, g2⟩ := grads_plane e ea eb ec
  obtain ⟨p1, p2, p3⟩ := plane_spec e.a e.b e.c h ea eb ec
  have c1 : corner e.js (grads e).1.1 (grads e).2.1.1 (grads e).2.2.1 i = (plane e.a e.b e.c ea eb ec).2.1 := by
    rw [← g1]; unfold corner; rw [← hea, ← heb, ← hec]; ring
  have c2 : corner e.js (grads e).1.2 (grads e).2.1.2 (grads e).2.2.2 i = (plane e.a e.b e.c ea eb ec).2.2 := by
    rw [← g2]; unfold corner; rw [← hea, ← heb, ← hec]; ring
  rw [c1, c2]
  rcases (add_nonneg (mul_self_nonneg (plane e.a e.b e.c ea eb ec).2.1) (mul_self_nonneg (plane e.a e.b e.c ea eb ec).2.2)).lt_or_eq with hlt | heq
  · exact hlt
  · exfalso
    have z1 : (plane e.a e.b e.c ea eb ec).2.1 = 0 := by
      nlinarith [mul_self_nonneg (plane e.a e.b e.c ea eb ec).2.1, mul_self_nonneg (plane e.a e.b e.c ea eb ec).2.2]
    have z2 : (plane e.a e.b e.c ea eb ec).2.2 = 0 := by
      nlinarith [mul_self_nonneg (plane e.a e.b e.c ea eb ec).2.1, mul_self_nonneg (plane e.a e.b e.c ea eb ec).2.2]
    rw [z1, z2] at p1 p2 p3
    have e1 : ea = eb := by linarith
    have e2 : ea = ec := by linarith
    rcases hi with rfl | rfl | rfl
    · simp [hea, heb, d1] at e1
    · simp [hea, heb, d1.symm] at e1
    · simp [hea, hec, d2.symm] at e2

theorem fit_diag_pos (sq : K → K) {m : Mesh K} (hm : Fits m) {alpha : K} (ha : 0 < alpha) (first : List (Pt K × K)) (rest : List (List (Pt K × K)))
    {e : Elem K} (he : e ∈ m.elems) {i : ℕ} (hi : i = e.js.1 ∨ i = e.js.2.1 ∨ i = e.js.2.2)
    (hd : e.js.1 ≠ e.js.2.1 ∧ e.js.1 ≠ e.js.2.2 ∧ e.js.2.1 ≠ e.js.2.2) : 0 < (fitExpr sq m alpha first rest).den (i, i) := by
  rw [fit_den]
  have hn : ∀ o ∈ obsOf sq m alpha (first ++ rest.flatten), 0 ≤ o.c * o.w i * o.w i := by
    intro o ho
    have := mul_nonneg (obs_nonneg sq hm ha.le _ o ho) (mul_self_nonneg (o.w i))
    rwa [← mul_assoc] at this
  refine lt_of_le_of_ne (list_sum_nonneg _ _ hn) fun h0 => ?_
  have hz := list_sum_zero _ _ hn h0.symm
  have h1 := hz ⟨alpha * e.area, corner e.js (grads e).1.1 (grads e).2.1.1 (grads e).2.2.1, 0⟩
      (List.mem_append_left _ (List.mem_flatMap.mpr ⟨e, he, by simp⟩))
  have h2 := hz ⟨alpha * e.area, corner e.js (grads e).1.2 (grads e).2.1.2 (grads e).2.2.2, 0⟩
      (List.mem_append_left _ (List.mem_flatMap.mpr ⟨e, he, by simp⟩))
  have h3 := mul_pos (mul_pos ha (hm.area e he)) (corner_slope (hm.proper e he) hi hd)
  simp only at h1 h2
  nlinarith

/-- **C63.** With positive smoothing and no lone nodes the compressed matrix handed to the solver stands for this system, whatever its uninitialised
memory contained: multiplying by it gives the right hand side exactly for the solutions. -/
theorem C63_solver_matrix (sq : K → K) (m : Mesh K) (hm : Fits m) (alpha : K) (ha : 0 < alpha)
    (hd : ∀ e ∈ m.elems, e.js.1 ≠ e.js.2.1 ∧ e.js.1 ≠ e.js.2.2 ∧ e.js.2.1 ≠ e.js.2.2)
    (hall : ∀ i < m.nodes, ∃ e ∈ m.elems, i = e.js.1 ∨ i = e.js.2.1 ∨ i = e.js.2.2) (hN : 0 < m.nodes)
    (first : List (Pt K × K)) (rest : List (List (Pt K × K))) (B : Dok K) (b : List K) (h : (run sq m alpha first rest).2 = .ok (B, b))
    (hc : ∀ k, (fitExpr sq m alpha first rest).Clear k) :
    B.numRows + 1 = m.nodes ∧ ∀ junk : List ℕ, junk.length = m.nodes + 1 → ∀ x : List K,
      ((B.toCsr junk).mulVec x = b ↔ Solves m.nodes B.table b x) := by
  obtain ⟨rfl, h2, -⟩ := run_ok sq hm alpha first rest h
  have hw := within_fit sq hm hN alpha first rest
  have hdiag : ∀ i < m.nodes, (i, i) ∈ keys (fitExpr sq m alpha first rest).eval.table := by
    intro i hi
    obtain ⟨e, he, hie⟩ := hall i hi
    have hp := fit_diag_pos sq hm ha first rest he hie (hd e he)
    by_contra hk
    rw [← Verif.Sparse.C52_exact _ _ (hc (i, i)), Verif.Sparse.look_of_not_mem hk] at hp
    exact lt_irrefl _ hp
  have hrows : (fitExpr sq m alpha first rest).eval.numRows + 1 = m.nodes := by
    have h1 := hw.rows
    have h3 := (Verif.Sparse.dexpr_wf (fitExpr sq m alpha first rest)).rows _ (hdiag (m.nodes - 1) (by omega))
    simp only at h3
    omega
  refine ⟨hrows, fun junk hj x => ?_⟩
  rw [Verif.Sparse.C52_compressed (fitExpr sq m alpha first rest) m.nodes (fun k hk => (hw.keys k hk).2)
    (by
      rintro i ⟨k, hk, hik⟩
      exact ⟨(i, i), hdiag i (by have := (hw.keys k hk).1; omega), rfl⟩) junk (by omega) x, hrows]
  unfold Solves
  constructor
  · intro he i hi
    rw [← he, List.getD_eq_getElem?_getD, List.getElem?_map, List.getElem?_range hi]
    rfl
  · intro hs
    apply List.ext_getElem?
    intro i
    by_cases hi : i < m.nodes
    · rw [List.getElem?_map, List.getElem?_range hi, Option.map_some, hs i hi, List.getD_eq_getElem?_getD,
        List.getElem?_eq_getElem (by omega)]
      rfl
    · rw [List.getElem?_eq_none (by simp; omega), List.getElem?_eq_none (by omega)]

end Verif.Fit
