import Verif.Fit.Spec
import Mathlib.Algebra.BigOperators.Ring.Finset
import Mathlib.Tactic.LinearCombination

/-! # Lemmas on fitting -/

namespace Verif.Fit

set_option linter.unusedSectionVars false

open Verif.Polygon (Pt Flat)
open Verif.Quad (Tri)
open Verif.Sparse (DExpr Dok Key look bump)

variable {K : Type*} [Field K] [LinearOrder K] [IsStrictOrderedRing K]

/-! ## Weighted least squares -/

/-- One weighted observation: `c (∑ w_j f_j - z)^2`. -/
structure Ob (K : Type*) where
  c : K
  w : ℕ → K
  z : K

def Ob.val (n : ℕ) (o : Ob K) (f : List K) : K := ∑ j ∈ Finset.range n, o.w j * f.getD j 0

def total (n : ℕ) (obs : List (Ob K)) (f : List K) : K := (obs.map fun o => o.c * (o.val n f - o.z) ^ 2).sum

theorem sum_mul_comm_list (l : List (Ob K)) (n : ℕ) (g : Ob K → ℕ → K) :
    (l.map fun o => ∑ j ∈ Finset.range n, g o j).sum = ∑ j ∈ Finset.range n, (l.map fun o => g o j).sum := by
  induction l with
  | nil => simp
  | cons o l ih => simp only [List.map_cons, List.sum_cons, ih, Finset.sum_add_distrib]

theorem list_sum_add {ι : Type*} (l : List ι) (f g : ι → K) : (l.map fun o => f o + g o).sum = (l.map f).sum + (l.map g).sum := by
  induction l with
  | nil => simp
  | cons o l ih => simp only [List.map_cons, List.sum_cons, ih]; ring

theorem list_sum_mul {ι : Type*} (l : List ι) (a : K) (f : ι → K) : (l.map fun o => a * f o).sum = a * (l.map f).sum := by
  induction l with
  | nil => simp
  | cons o l ih => simp only [List.map_cons, List.sum_cons, ih]; ring

theorem list_sum_nonneg {ι : Type*} (l : List ι) (f : ι → K) (h : ∀ o ∈ l, 0 ≤ f o) : 0 ≤ (l.map f).sum := by
  induction l with
  | nil => simp
  | cons o l ih =>
    simp only [List.map_cons, List.sum_cons]
    exact add_nonneg (h o (by simp)) (ih fun o ho => h o (by simp [ho]))

theorem list_sum_zero {ι : Type*} (l : List ι) (f : ι → K) (h : ∀ o ∈ l, 0 ≤ f o) (h0 : (l.map f).sum = 0) : ∀ o ∈ l, f o = 0 := by
  induction l with
  | nil => simp
  | cons o l ih =>
    simp only [List.map_cons, List.sum_cons] at h0
    have h1 := h o (by simp)
    have h2 := list_sum_nonneg l f fun o ho => h o (by simp [ho])
    intro p hp
    rcases List.mem_cons.mp hp with rfl | hp
    · linarith
    · exact ih (fun o ho => h o (by simp [ho])) (by linarith) p hp

/-- If the normal equations hold at `f`, the cost elsewhere exceeds that at `f` by the weighted squares of the differences. -/
theorem normal_equations (n : ℕ) (obs : List (Ob K)) (f g : List K)
    (h : ∀ i < n, ∑ j ∈ Finset.range n, (obs.map fun o => o.c * o.w i * o.w j).sum * f.getD j 0 = (obs.map fun o => o.c * o.w i * o.z).sum) :
    total n obs g = total n obs f + (obs.map fun o => o.c * (o.val n g - o.val n f) ^ 2).sum := by
  have e1 : ∀ i < n, (obs.map fun o => o.c * o.w i * (o.val n f - o.z)).sum = 0 := by
    intro i hi
    have e : (obs.map fun o => o.c * o.w i * (o.val n f - o.z)) =
        obs.map fun o => (o.c * o.w i * o.val n f) + (-1) * (o.c * o.w i * o.z) := by
      apply List.map_congr_left; intro o _; ring
    rw [e, list_sum_add, list_sum_mul, ← h i hi]
    have e2 : (obs.map fun o => o.c * o.w i * o.val n f) = obs.map fun o => ∑ j ∈ Finset.range n, o.c * o.w i * o.w j * f.getD j 0 := by
      apply List.map_congr_left; intro o _
      unfold Ob.val
      rw [Finset.mul_sum]
      exact Finset.sum_congr rfl fun j _ => by ring
    rw [e2, sum_mul_comm_list]
    have e3 : ∀ j, (obs.map fun o => o.c * o.w i * o.w j * f.getD j 0).sum = (obs.map fun o => o.c * o.w i * o.w j).sum * f.getD j 0 := by
      intro j
      rw [mul_comm, ← list_sum_mul]
      congr 1
      apply List.map_congr_left; intro o _; ring
    simp only [e3]
    ring
  have e4 : (obs.map fun o => o.c * (o.val n g - o.val n f) * (o.val n f - o.z)).sum = 0 := by
    have e5 : (obs.map fun o => o.c * (o.val n g - o.val n f) * (o.val n f - o.z)) =
        obs.map fun o => ∑ i ∈ Finset.range n, (g.getD i 0 - f.getD i 0) * (o.c * o.w i * (o.val n f - o.z)) := by
      apply List.map_congr_left; intro o _
      have : o.val n g - o.val n f = ∑ i ∈ Finset.range n, (g.getD i 0 - f.getD i 0) * o.w i := by
        unfold Ob.val
        rw [← Finset.sum_sub_distrib]
        exact Finset.sum_congr rfl fun j _ => by ring
      rw [this, Finset.mul_sum, Finset.sum_mul]
      exact Finset.sum_congr rfl fun j _ => by ring
    rw [e5, sum_mul_comm_list]
    apply Finset.sum_eq_zero
    intro i hi
    rw [list_sum_mul, e1 i (Finset.mem_range.mp hi), mul_zero]
  unfold total
  have e6 : (obs.map fun o => o.c * (o.val n g - o.z) ^ 2) = obs.map fun o => (o.c * (o.val n f - o.z) ^ 2 +
      o.c * (o.val n g - o.val n f) ^ 2) + 2 * (o.c * (o.val n g - o.val n f) * (o.val n f - o.z)) := by
    apply List.map_congr_left; intro o _; ring
  rw [e6, list_sum_add, list_sum_add, list_sum_mul, e4]
  ring

/-! ## Corner weights -/

/-- Weights `a`, `b`, `c` at three nodes. -/
def corner (js : ℕ × ℕ × ℕ) (a b c : K) (j : ℕ) : K :=
  (if j = js.1 then 1 else 0) * a + (if j = js.2.1 then 1 else 0) * b + (if j = js.2.2 then 1 else 0) * c

theorem sum_ind (n p : ℕ) (hp : p < n) (f : ℕ → K) : ∑ j ∈ Finset.range n, (if j = p then (1 : K) else 0) * f j = f p := by
  rw [Finset.sum_eq_single p]
  · simp
  · intro b _ hb; simp [hb]
  · intro h; exact absurd (Finset.mem_range.mpr hp) h

theorem corner_val (n : ℕ) (js : ℕ × ℕ × ℕ) (h : js.1 < n ∧ js.2.1 < n ∧ js.2.2 < n) (c a0 a1 a2 z : K) (f : List K) :
    (Ob.mk c (corner js a0 a1 a2) z).val n f = a0 * f.getD js.1 0 + a1 * f.getD js.2.1 0 + a2 * f.getD js.2.2 0 := by
  unfold Ob.val corner
  have e : ∀ j, ((if j = js.1 then (1 : K) else 0) * a0 + (if j = js.2.1 then 1 else 0) * a1 + (if j = js.2.2 then 1 else 0) * a2) * f.getD j 0 =
      (if j = js.1 then (1 : K) else 0) * (a0 * f.getD j 0) + (if j = js.2.1 then 1 else 0) * (a1 * f.getD j 0) +
        (if j = js.2.2 then 1 else 0) * (a2 * f.getD j 0) := fun j => by ring
  simp only [e, Finset.sum_add_distrib]
  rw [sum_ind n js.1 h.1 fun j => a0 * f.getD j 0, sum_ind n js.2.1 h.2.1 fun j => a1 * f.getD j 0, sum_ind n js.2.2 h.2.2 fun j => a2 * f.getD j 0]

/-! ## The accumulated matrices -/

theorem key_if (i j p q : ℕ) (v : K) : (if ((i, j) : Key) = (p, q) then v else 0) =
    (if i = p then (1 : K) else 0) * (if j = q then 1 else 0) * v := by
  by_cases h1 : i = p <;> by_cases h2 : j = q <;> simp [h1, h2, Prod.mk.injEq]

theorem addAll_den (es : List (Key × K)) (k : Key) : ∀ d : DExpr K,
    (addAll es d).den k = d.den k + (es.map fun s => if k = s.1 then s.2 else 0).sum := by
  induction es with
  | nil => intro d; simp [addAll]
  | cons s es ih =>
    intro d
    have := ih (.add d s.1 s.2)
    unfold addAll at this ⊢
    rw [List.foldl_cons, this, List.map_cons, List.sum_cons]
    simp only [DExpr.den]
    ring

theorem addAll_eval (es : List (Key × K)) : ∀ d : DExpr K,
    (addAll es d).eval = es.foldl (fun d s => d.addEntry s.1 s.2) d.eval := by
  induction es with
  | nil => intro d; rfl
  | cons s es ih =>
    intro d
    have := ih (.add d s.1 s.2)
    unfold addAll at this ⊢
    rw [List.foldl_cons, this, List.foldl_cons]
    rfl

theorem flat_sum {ι κ : Type*} (l : List ι) (f : ι → List κ) (g : κ → K) :
    ((l.flatMap f).map g).sum = (l.map fun x => ((f x).map g).sum).sum := by
  induction l with
  | nil => simp
  | cons x l ih => simp [List.flatMap_cons, ih]

theorem smooth_sum (e : Elem K) (i j : ℕ) :
    let g := grads e
    ((smoothEntries e).map fun s => if ((i, j) : Key) = s.1 then s.2 else 0).sum =
      e.area * (corner e.js g.1.1 g.2.1.1 g.2.2.1 i * corner e.js g.1.1 g.2.1.1 g.2.2.1 j +
        corner e.js g.1.2 g.2.1.2 g.2.2.2 i * corner e.js g.1.2 g.2.1.2 g.2.2.2 j) := by
  intro g
  simp only [smoothEntries, List.map_cons, List.map_nil, List.sum_cons, List.sum_nil, key_if, corner]
  ring

theorem point_sum (js : ℕ × ℕ × ℕ) (w : K × K × K) (i j : ℕ) :
    ((pointEntries js w).map fun s => if ((i, j) : Key) = s.1 then s.2 else 0).sum =
      corner js w.1 w.2.1 w.2.2 i * corner js w.1 w.2.1 w.2.2 j := by
  simp only [pointEntries, List.map_cons, List.map_nil, List.sum_cons, List.sum_nil, key_if, corner]
  ring

/-- The two observations of a triangle: the slopes should vanish. -/
def elemObs (alpha : K) (m : Mesh K) : List (Ob K) :=
  m.elems.flatMap fun e =>
    [⟨alpha * e.area, corner e.js (grads e).1.1 (grads e).2.1.1 (grads e).2.2.1, 0⟩,
      ⟨alpha * e.area, corner e.js (grads e).1.2 (grads e).2.1.2 (grads e).2.2.2, 0⟩]

/-- The observation made by a point. -/
def pointObs (sq : K → K) (m : Mesh K) (d : Pt K × K) : List (Ob K) :=
  match m.tree.search d.1 with
  | none => []
  | some t => [⟨1, corner (m.nodesOf t.index) (Verif.Quad.sigma sq t d.1).1 (Verif.Quad.sigma sq t d.1).2.1 (Verif.Quad.sigma sq t d.1).2.2, d.2⟩]

def obsOf (sq : K → K) (m : Mesh K) (alpha : K) (data : List (Pt K × K)) : List (Ob K) :=
  elemObs alpha m ++ data.flatMap (pointObs sq m)

theorem smooth_den (m : Mesh K) (alpha : K) (i j : ℕ) :
    alpha * (smoothExpr m).den (i, j) = ((elemObs alpha m).map fun o => o.c * o.w i * o.w j).sum := by
  unfold smoothExpr elemObs
  rw [addAll_den, flat_sum, flat_sum]
  simp only [DExpr.den, zero_add]
  rw [← list_sum_mul]
  congr 1
  apply List.map_congr_left
  intro e _
  rw [smooth_sum]
  simp only [List.map_cons, List.map_nil, List.sum_cons, List.sum_nil]
  ring

theorem block_den (sq : K → K) (m : Mesh K) (data : List (Pt K × K)) (i j : ℕ) :
    (blockExpr sq m data).den (i, j) = ((data.flatMap (pointObs sq m)).map fun o => o.c * o.w i * o.w j).sum := by
  unfold blockExpr
  rw [addAll_den, flat_sum, flat_sum]
  simp only [DExpr.den, zero_add]
  congr 1
  apply List.map_congr_left
  intro d _
  unfold entriesAt pointObs
  cases m.tree.search d.1 with
  | none => simp
  | some t => simp only [point_sum, List.map_cons, List.map_nil, List.sum_cons, List.sum_nil]; ring

theorem feed_den (sq : K → K) (m : Mesh K) (k : Key) (rest : List (List (Pt K × K))) : ∀ (e : DExpr K) (data : List (Pt K × K)),
    e.den k = (blockExpr sq m data).den k →
    (rest.foldl (fun d b => DExpr.combine d 1 (blockExpr sq m b) 1) e).den k = (blockExpr sq m (data ++ rest.flatten)).den k := by
  induction rest with
  | nil => intro e data h; simpa using h
  | cons b rest ih =>
    intro e data h
    rw [List.foldl_cons, ih _ (data ++ b), List.flatten_cons, List.append_assoc]
    simp only [DExpr.den, h, one_mul]
    obtain ⟨i, j⟩ := k
    rw [block_den, block_den, block_den, List.flatMap_append, List.map_append, List.sum_append]

theorem fit_den (sq : K → K) (m : Mesh K) (alpha : K) (first : List (Pt K × K)) (rest : List (List (Pt K × K))) (i j : ℕ) :
    (fitExpr sq m alpha first rest).den (i, j) =
      ((obsOf sq m alpha (first ++ rest.flatten)).map fun o => o.c * o.w i * o.w j).sum := by
  unfold fitExpr
  simp only [DExpr.den, one_mul]
  rw [smooth_den]
  unfold feedExpr
  rw [feed_den sq m (i, j) rest _ first rfl, block_den]
  unfold obsOf
  rw [List.map_append, List.sum_append]

/-! ## Running the model -/

theorem getD_bump (l : List K) (p : ℕ) (v : K) (hp : p < l.length) (i : ℕ) :
    (bump l p v).getD i 0 = l.getD i 0 + (if i = p then 1 else 0) * v := by
  unfold bump
  rw [List.getD_eq_getElem?_getD, List.getD_eq_getElem?_getD, List.getElem?_modify]
  by_cases h : i = p
  · subst h
    rw [List.getElem?_eq_getElem hp]; simp
  · simp [h, Ne.symm h]

theorem length_bump (l : List K) (p : ℕ) (v : K) : (bump l p v).length = l.length := by unfold bump; simp

theorem tri_of_search {m : Mesh K} (hm : Fits m) {p : Pt K} {t : Tri K} (h : m.tree.search p = some t) :
    ∃ e ∈ m.elems, m.elems[t.index]? = some e ∧ m.nodesOf t.index = e.js ∧ t.a = e.a ∧ t.b = e.b ∧ t.c = e.c := by
  obtain ⟨fuel, root, hT⟩ := hm.tree
  obtain ⟨h1, -⟩ := Verif.Quad.C27_found_contains fuel root _ m.tree hT p t h
  obtain ⟨k, hk, rfl⟩ := List.mem_mapIdx.mp h1
  refine ⟨m.elems[k], List.getElem_mem hk, by simp [hk], by simp [Mesh.nodesOf, hk], rfl, rfl, rfl⟩

theorem buildPoints_spec (sq : K → K) {m : Mesh K} (hm : Fits m) (data : List (Pt K × K)) :
    ∀ (e : DExpr K) (z : List K), z.length = m.nodes →
      (data.foldl (addPoint sq m) (e.eval, z)).1 = (addAll (data.flatMap (entriesAt sq m)) e).eval ∧
      (data.foldl (addPoint sq m) (e.eval, z)).2.length = m.nodes ∧
      ∀ i, (data.foldl (addPoint sq m) (e.eval, z)).2.getD i 0 =
        z.getD i 0 + ((data.flatMap (pointObs sq m)).map fun o => o.c * o.w i * o.z).sum := by
  induction data with
  | nil => intro e z hz; exact ⟨rfl, hz, fun i => by simp⟩
  | cons d data ih =>
    intro e z hz
    rw [List.foldl_cons]
    cases hs : m.tree.search d.1 with
    | none =>
      have e1 : addPoint sq m (e.eval, z) d = (e.eval, z) := by unfold addPoint; rw [hs]
      have e2 : entriesAt sq m d = [] := by unfold entriesAt; rw [hs]
      have e3 : pointObs sq m d = [] := by unfold pointObs; rw [hs]
      rw [e1, List.flatMap_cons, List.flatMap_cons, e2, e3]
      exact ih e z hz
    | some t =>
      obtain ⟨el, hel, -, hn, -⟩ := tri_of_search hm hs
      have hb := hm.nodes el hel
      rw [← hn] at hb
      set w := Verif.Quad.sigma sq t d.1 with hw
      set js := m.nodesOf t.index with hjs
      set z' := bump (bump (bump z js.1 (w.1 * d.2)) js.2.1 (w.2.1 * d.2)) js.2.2 (w.2.2 * d.2) with hz'
      have e1 : addPoint sq m (e.eval, z) d = ((addAll (pointEntries js w) e).eval, z') := by
        unfold addPoint; rw [hs, addAll_eval]
      have e2 : entriesAt sq m d = pointEntries js w := by unfold entriesAt; rw [hs]
      have e3 : pointObs sq m d = [⟨1, corner js w.1 w.2.1 w.2.2, d.2⟩] := by unfold pointObs; rw [hs]
      have hl : z'.length = m.nodes := by rw [hz', length_bump, length_bump, length_bump, hz]
      obtain ⟨k1, k2, k3⟩ := ih (addAll (pointEntries js w) e) z' hl
      rw [e1, List.flatMap_cons, List.flatMap_cons, e2, e3]
      refine ⟨?_, k2, fun i => ?_⟩
      · rw [k1]; unfold addAll; rw [List.foldl_append]
      · rw [k3 i, hz', getD_bump _ _ _ (by rw [length_bump, length_bump, hz]; exact hb.2.2), getD_bump _ _ _ (by rw [length_bump, hz]; exact hb.2.1),
          getD_bump _ _ _ (by rw [hz]; exact hb.1)]
        rw [List.map_append, List.sum_append]
        simp only [List.map_cons, List.map_nil, List.sum_cons, List.sum_nil, corner]
        ring

/-- What has been accumulated after some blocks. -/
structure Fed (sq : K → K) (m : Mesh K) (alpha : K) (first : List (Pt K × K)) (rest : List (List (Pt K × K))) (o : Obj K) : Prop where
  mesh : o.mesh = m
  alpha : o.alpha = alpha
  D : o.D = (smoothExpr m).eval
  AtA : o.AtA = some (feedExpr sq m first rest).eval
  len : o.Atz.length = m.nodes
  Atz : ∀ i, o.Atz.getD i 0 = (((first ++ rest.flatten).flatMap (pointObs sq m)).map fun o => o.c * o.w i * o.z).sum
  count : o.count = (first ++ rest.flatten).length

theorem fed_first (sq : K → K) {m : Mesh K} (hm : Fits m) (alpha : K) (first : List (Pt K × K)) :
    Fed sq m alpha first [] ((Obj.new m alpha).addBlock sq first) := by
  obtain ⟨k1, k2, k3⟩ := buildPoints_spec sq hm first .make (List.replicate m.nodes 0) (by simp)
  have hD : smoothing m = (smoothExpr m).eval := (addAll_eval (m.elems.flatMap smoothEntries) .make).symm
  refine ⟨rfl, rfl, hD, ?_, k2, fun i => ?_, by simp [Obj.addBlock, Obj.new]⟩
  · exact congrArg some k1
  · refine (k3 i).trans ?_
    rw [List.flatten_nil, List.append_nil, List.getD_eq_getElem?_getD, List.getElem?_replicate]
    split_ifs <;> simp

theorem fed_next (sq : K → K) {m : Mesh K} (hm : Fits m) {alpha : K} {first : List (Pt K × K)} {rest : List (List (Pt K × K))} {o : Obj K}
    (h : Fed sq m alpha first rest o) (b : List (Pt K × K)) : Fed sq m alpha first (rest ++ [b]) (o.addBlock sq b) := by
  obtain ⟨k1, k2, k3⟩ := buildPoints_spec sq hm b .make (List.replicate m.nodes 0) (by simp)
  have e : o.addBlock sq b = ⟨o.mesh, o.alpha, o.D, some ((feedExpr sq m first rest).eval.combine 1 (buildPoints sq m b).1 1),
      List.zipWith (· + ·) o.Atz (buildPoints sq m b).2, o.count + b.length⟩ := by
    unfold Obj.addBlock
    rw [h.AtA, h.mesh]
  rw [e]
  refine ⟨h.mesh, h.alpha, h.D, ?_, ?_, fun i => ?_, ?_⟩
  · have k1' : (buildPoints sq m b).1 = (blockExpr sq m b).eval := k1
    simp only [k1']
    unfold feedExpr
    rw [List.foldl_append]
    rfl
  · simp only [List.length_zipWith, h.len]
    have k2' : (buildPoints sq m b).2.length = m.nodes := k2
    rw [k2', min_self]
  · have k2' : (buildPoints sq m b).2.length = m.nodes := k2
    have k3' : (buildPoints sq m b).2.getD i 0 = ((b.flatMap (pointObs sq m)).map fun o => o.c * o.w i * o.z).sum := by
      refine (k3 i).trans ?_
      rw [List.getD_eq_getElem?_getD, List.getElem?_replicate]
      split_ifs <;> simp
    rw [List.flatten_append, ← List.append_assoc, List.flatMap_append, List.map_append, List.sum_append, ← h.Atz i]
    simp only [List.flatten_cons, List.flatten_nil, List.append_nil]
    rw [← k3']
    simp only [List.getD_eq_getElem?_getD, List.getElem?_zipWith]
    by_cases hi : i < m.nodes
    · rw [List.getElem?_eq_getElem (by rw [h.len]; exact hi), List.getElem?_eq_getElem (by rw [k2']; exact hi)]
      simp
    · rw [List.getElem?_eq_none (by rw [h.len]; omega), List.getElem?_eq_none (by rw [k2']; omega)]
      simp
  · simp only [h.count, List.flatten_append, List.length_append, List.flatten_cons, List.flatten_nil, List.append_nil]
    omega

theorem fed_all (sq : K → K) {m : Mesh K} (hm : Fits m) (alpha : K) (first : List (Pt K × K)) (rest : List (List (Pt K × K))) :
    Fed sq m alpha first rest (rest.foldl (Obj.addBlock sq) ((Obj.new m alpha).addBlock sq first)) := by
  induction rest using List.reverseRecOn with
  | nil => exact fed_first sq hm alpha first
  | append_singleton rest b ih =>
    rw [List.foldl_append]
    exact fed_next sq hm ih b

/-! ## The cost is the total of the observations -/

theorem plane_spec (a b c : Pt K) (h : ¬ Flat a b c) (fa fb fc : K) :
    let q := plane a b c fa fb fc
    q.1 + q.2.1 * a.x + q.2.2 * a.y = fa ∧ q.1 + q.2.1 * b.x + q.2.2 * b.y = fb ∧ q.1 + q.2.1 * c.x + q.2.2 * c.y = fc := by
  have hd : (b.x - a.x) * (c.y - a.y) - (c.x - a.x) * (b.y - a.y) ≠ 0 := by
    intro h0; apply h; unfold Flat; linarith
  simp only [plane]
  refine ⟨by ring, ?_, ?_⟩
  · have : ((fb - fa) * (c.y - a.y) - (fc - fa) * (b.y - a.y)) / ((b.x - a.x) * (c.y - a.y) - (c.x - a.x) * (b.y - a.y)) * (b.x - a.x) +
      ((b.x - a.x) * (fc - fa) - (c.x - a.x) * (fb - fa)) / ((b.x - a.x) * (c.y - a.y) - (c.x - a.x) * (b.y - a.y)) * (b.y - a.y) = fb - fa := by
      rw [div_mul_eq_mul_div, div_mul_eq_mul_div, ← add_div, div_eq_iff hd]; ring
    linear_combination this
  · have : ((fb - fa) * (c.y - a.y) - (fc - fa) * (b.y - a.y)) / ((b.x - a.x) * (c.y - a.y) - (c.x - a.x) * (b.y - a.y)) * (c.x - a.x) +
      ((b.x - a.x) * (fc - fa) - (c.x - a.x) * (fb - fa)) / ((b.x - a.x) * (c.y - a.y) - (c.x - a.x) * (b.y - a.y)) * (c.y - a.y) = fc - fa := by
      rw [div_mul_eq_mul_div, div_mul_eq_mul_div, ← add_div, div_eq_iff hd]; ring
    linear_combination this

theorem grads_plane (e : Elem K) (fa fb fc : K) :
    (grads e).1.1 * fa + (grads e).2.1.1 * fb + (grads e).2.2.1 * fc = (plane e.a e.b e.c fa fb fc).2.1 ∧
      (grads e).1.2 * fa + (grads e).2.1.2 * fb + (grads e).2.2.2 * fc = (plane e.a e.b e.c fa fb fc).2.2 := by
  have hd : (e.c.y - e.a.y) * (e.b.x - e.a.x) - (e.b.y - e.a.y) * (e.c.x - e.a.x) =
      (e.b.x - e.a.x) * (e.c.y - e.a.y) - (e.c.x - e.a.x) * (e.b.y - e.a.y) := by ring
  simp only [grads, plane, hd, div_mul_eq_mul_div, ← add_div]
  constructor <;> congr 1 <;> ring

theorem total_eq_cost (sq : K → K) (hs : ∀ x, 0 < x → sq x ≠ 0) {m : Mesh K} (hm : Fits m) (alpha : K) (data : List (Pt K × K)) (f : List K) :
    total m.nodes (obsOf sq m alpha data) f = cost m alpha data f := by
  unfold total obsOf cost
  rw [List.map_append, List.sum_append, add_comm]
  congr 1
  · unfold misfit
    rw [flat_sum]
    congr 1
    apply List.map_congr_left
    intro d _
    unfold pointObs
    cases hsr : m.tree.search d.1 with
    | none => simp
    | some t =>
      obtain ⟨e, he, h1, h2, h3, h4, h5⟩ := tri_of_search hm hsr
      have hb := hm.nodes e he
      simp only [h1, h2, List.map_cons, List.map_nil, List.sum_cons, List.sum_nil]
      rw [corner_val m.nodes e.js hb]
      have hp := hm.proper e he
      obtain ⟨w1, w2, w3, -⟩ := Verif.Quad.weights_of_ne sq hs t (by rw [h3, h4, h5]; exact hp) d.1
      obtain ⟨p1, p2, p3⟩ := plane_spec e.a e.b e.c hp (f.getD e.js.1 0) (f.getD e.js.2.1 0) (f.getD e.js.2.2 0)
      unfold Elem.plane
      generalize plane e.a e.b e.c (f.getD e.js.1 0) (f.getD e.js.2.1 0) (f.getD e.js.2.2 0) = q at p1 p2 p3 ⊢
      rw [h3, h4, h5] at w2 w3
      rw [← p1, ← p2, ← p3, ← w2, ← w3]
      generalize Verif.Quad.sigma sq t d.1 = w at w1 ⊢
      have : w.1 = 1 - w.2.1 - w.2.2 := by linarith
      rw [this]
      ring
  · unfold elemObs roughness
    rw [flat_sum, ← list_sum_mul]
    congr 1
    apply List.map_congr_left
    intro e he
    have hb := hm.nodes e he
    simp only [List.map_cons, List.map_nil, List.sum_cons, List.sum_nil, corner_val m.nodes e.js hb]
    obtain ⟨g1, g2⟩ := grads_plane e (f.getD e.js.1 0) (f.getD e.js.2.1 0) (f.getD e.js.2.2 0)
    rw [g1, g2]
    unfold Elem.plane
    ring

end Verif.Fit
