import Verif.MaxOps.Props
import Verif.ParFile.Props

/-! C105: the operator for the stage alone, the exported table, and several processors. -/

namespace Verif.MaxOps

variable {n : ℕ}

theorem foldl_max_greatest {α : Type*} (f : α → ℝ) (l : List α) (a : ℝ) : IsGreatest {v | v = a ∨ ∃ x ∈ l, v = f x} (l.foldl (fun m x => max m (f x)) a) := by
  induction l generalizing a with
  | nil => exact ⟨.inl rfl, by rintro x (rfl | ⟨y, hy, _⟩); exacts [le_rfl, absurd hy (by simp)]⟩
  | cons x l ih =>
    rw [List.foldl_cons]
    obtain ⟨h1, h2⟩ := ih (max a (f x))
    constructor
    · rcases h1 with e | ⟨y, hy, e⟩
      · rcases le_total a (f x) with hl | hl
        · rw [max_eq_right hl] at e; exact .inr ⟨x, List.mem_cons_self .., by rw [max_eq_right hl]; exact e⟩
        · rw [max_eq_left hl] at e; exact .inl (by rw [max_eq_left hl]; exact e)
      · exact .inr ⟨y, List.mem_cons_of_mem _ hy, e⟩
    · rintro v (rfl | ⟨y, hy, rfl⟩)
      · exact le_trans (le_max_left _ _) (h2 (.inl rfl))
      · rcases List.mem_cons.mp hy with rfl | hy
        · exact le_trans (le_max_right _ _) (h2 (.inl rfl))
        · exact h2 (.inr ⟨y, hy, rfl⟩)

theorem maxStage_fields (l : List (Values n)) (a : Values n) (i : Fin n) (k : Fin 3) :
    (l.foldl Values.maximum a).vertex i k = l.foldl (fun m x => max m (x.vertex i k)) (a.vertex i k) ∧
    (l.foldl Values.maximum a).edge i k = l.foldl (fun m x => max m (x.edge i k)) (a.edge i k) ∧
    (l.foldl Values.maximum a).centroid i = l.foldl (fun m x => max m (x.centroid i)) (a.centroid i) := by
  induction l generalizing a with
  | nil => exact ⟨rfl, rfl, rfl⟩
  | cons x l ih => exact ih (a.maximum x)

/-- C105: each value of the greatest stage, at vertices, edges and centroids, is the greatest of those at the calls (and of -1e100). -/
theorem C105_max_stage (l : List (Values n)) (i : Fin n) (k : Fin 3) :
    IsGreatest {v | v = -10 ^ 100 ∨ ∃ x ∈ l, v = x.vertex i k} ((maxStage l).vertex i k) ∧
    IsGreatest {v | v = -10 ^ 100 ∨ ∃ x ∈ l, v = x.edge i k} ((maxStage l).edge i k) ∧
    IsGreatest {v | v = -10 ^ 100 ∨ ∃ x ∈ l, v = x.centroid i} ((maxStage l).centroid i) := by
  obtain ⟨h1, h2, h3⟩ := maxStage_fields l (maxStage0 n) i k
  unfold maxStage
  rw [h1, h2, h3]
  exact ⟨foldl_max_greatest _ l _, foldl_max_greatest _ l _, foldl_max_greatest _ l _⟩

/-- C105: where at every call the stage at the centroid is the mean of those at the vertices, the greatest at the centroid is at most the mean of the
greatest at the vertices. -/
theorem C105_mean (l : List (Values n)) (i : Fin n) (hc : ∀ x ∈ l, x.centroid i = (x.vertex i 0 + x.vertex i 1 + x.vertex i 2) / 3) :
    (maxStage l).centroid i ≤ ((maxStage l).vertex i 0 + (maxStage l).vertex i 1 + (maxStage l).vertex i 2) / 3 := by
  obtain ⟨v0, _, c⟩ := C105_max_stage l i 0
  obtain ⟨v1, _, _⟩ := C105_max_stage l i 1
  obtain ⟨v2, _, _⟩ := C105_max_stage l i 2
  rcases c.1 with e | ⟨x, hx, e⟩
  · have := v0.2 (.inl rfl)
    have := v1.2 (.inl rfl)
    have := v2.2 (.inl rfl)
    rw [e]
    linarith
  · have := v0.2 (.inr ⟨x, hx, rfl⟩)
    have := v1.2 (.inr ⟨x, hx, rfl⟩)
    have := v2.2 (.inr ⟨x, hx, rfl⟩)
    rw [e, hc x hx]
    linarith

/-- C105: in a run by Euler's method the greatest stage at centroids is over the values after each step, and at vertices over the values extrapolated before each
step: the last values are missing there, and the first ones at centroids. -/
theorem C105_max_stage_run (vert edge : (Fin n → ℝ) → Fin n → Fin 3 → ℝ) (q : Fin n → ℝ) (qs : List (Fin n → ℝ)) (i : Fin n) (k : Fin 3) :
    IsGreatest {v | v = -10 ^ 100 ∨ ∃ x ∈ qs, v = x i} ((maxStage (seen vert edge q qs)).centroid i) ∧
    IsGreatest {v | v = -10 ^ 100 ∨ ∃ x ∈ (q :: qs).dropLast, v = vert x i k} ((maxStage (seen vert edge q qs)).vertex i k) := by
  have hseen : ∀ (qs : List (Fin n → ℝ)) q, (seen vert edge q qs).map Values.centroid = qs ∧
      (seen vert edge q qs).map Values.vertex = (q :: qs).dropLast.map vert := by
    intro qs
    induction qs with
    | nil => intro q; exact ⟨rfl, rfl⟩
    | cons q' qs ih =>
      intro q
      obtain ⟨h1, h2⟩ := ih q'
      refine ⟨?_, ?_⟩
      · simp only [seen, List.map_cons, h1]
      · simp only [seen, List.map_cons, h2, List.dropLast_cons_cons]
  obtain ⟨h1, h2⟩ := hseen qs q
  obtain ⟨v, _, c⟩ := C105_max_stage (seen vert edge q qs) i k
  have e1 : {v | v = -10 ^ 100 ∨ ∃ x ∈ seen vert edge q qs, v = x.centroid i} = {v | v = -10 ^ 100 ∨ ∃ x ∈ qs, v = x i} := by
    ext v
    simp only [Set.mem_ofPred_eq]
    rw [← h1]
    simp only [List.mem_map, exists_exists_and_eq_and]
    rw [h1]
  have e2 : {v | v = -10 ^ 100 ∨ ∃ x ∈ seen vert edge q qs, v = x.vertex i k} = {v | v = -10 ^ 100 ∨ ∃ x ∈ (q :: qs).dropLast, v = vert x i k} := by
    ext v
    simp only [Set.mem_ofPred_eq]
    have a : (∃ x ∈ seen vert edge q qs, v = x.vertex i k) ↔ ∃ f ∈ (seen vert edge q qs).map Values.vertex, v = f i k := by
      simp only [List.mem_map, exists_exists_and_eq_and]
    rw [a, h2]
    simp only [List.mem_map, exists_exists_and_eq_and]
  rw [e1] at c
  rw [e2] at v
  exact ⟨c, v⟩

/-- Disagreement: after a step in which the water rises, with values constant in each triangle, the greatest stage at the vertices is that before
the step, below the greatest at the centroid. -/
theorem C105_stale (a b : ℝ) (hab : a < b) (ha : -10 ^ 100 ≤ a) (i : Fin n) (k : Fin 3) :
    (maxStage (seen (fun q i _ => q i) (fun q i _ => q i) (fun _ : Fin n => a) [fun _ => b])).vertex i k = a ∧
    (maxStage (seen (fun q i _ => q i) (fun q i _ => q i) (fun _ : Fin n => a) [fun _ => b])).centroid i = b := by
  simp only [maxStage, seen, maxStage0, Values.maximum, List.foldl_cons, List.foldl_nil]
  exact ⟨max_eq_right ha, max_eq_right (by linarith)⟩

/-! ### Locality and several processors -/

/-- What two operators hold for two triangles. -/
def Same {n n' : ℕ} (o : Op n) (o' : Op n') (i : Fin n) (j : Fin n') : Prop :=
  o.freq = o'.freq ∧ o.start = o'.start ∧ o.zeroH = o'.zeroH ∧ o.minH = o'.minH ∧ o.counter = o'.counter ∧ o.stage i = o'.stage j ∧ o.depth i = o'.depth j ∧
  o.speed i = o'.speed j ∧ o.speedDepth i = o'.speedDepth j

theorem same_call {n n' : ℕ} {o : Op n} {o' : Op n'} {i : Fin n} {j : Fin n'} (h : Same o o' i j) (t : ℝ) (q : State n) (q' : State n') (hq : q i = q' j) :
    Same (call o t q) (call o' t q') i j := by
  obtain ⟨f, st, z, mh, c, a1, a2, a3, a4⟩ := o
  obtain ⟨f', st', z', mh', c', b1, b2, b3, b4⟩ := o'
  obtain ⟨h1, h2, h3, h4, h5, h6, h7, h8, h9⟩ := h
  dsimp only at h1 h2 h3 h4 h5 h6 h7 h8 h9
  subst h1 h2 h3 h4 h5
  unfold call
  dsimp only
  by_cases ht : t > st
  · rw [if_pos ht, if_pos ht]
    by_cases he : ((c + 1 : ℕ) : ℝ) = f
    · rw [if_pos he, if_pos he]
      refine ⟨rfl, rfl, rfl, rfl, rfl, ?_, ?_, ?_, ?_⟩
      · show max (a1 i) _ = max (b1 j) _
        rw [h6, hq]
      · show max (a2 i) (max _ mh) = max (b2 j) (max _ mh)
        rw [h7, hq]
      · show max (a3 i) (_ / max _ mh * _) = max (b3 j) (_ / max _ mh * _)
        simp only [h8, hq]
      · show max (a4 i) _ = max (b4 j) _
        simp only [h9, hq]
    · rw [if_neg he, if_neg he]
      exact ⟨rfl, rfl, rfl, rfl, rfl, h6, h7, h8, h9⟩
  · rw [if_neg ht, if_neg ht]
    exact ⟨rfl, rfl, rfl, rfl, rfl, h6, h7, h8, h9⟩

/-- C105: the maxima of a triangle depend on its own values alone: an operator on another mesh called at the same times, where a triangle has the same values, has the
same maxima for it. -/
theorem C105_local {n n' : ℕ} {minH freq start : ℝ} {zeroH : Option ℝ} {o : Op n} {o' : Op n'} (h : mk n minH freq start zeroH = some o)
    (h' : mk n' minH freq start zeroH = some o') (l : List (ℝ × State n × State n')) (i : Fin n) (j : Fin n') (hl : ∀ c ∈ l, c.2.1 i = c.2.2 j) :
    Same (calls o (l.map fun c => (c.1, c.2.1))) (calls o' (l.map fun c => (c.1, c.2.2))) i j := by
  have h0 : Same o o' i j := by
    unfold mk at h h'
    split_ifs at h h' with hf
    simp only [Option.some.injEq] at h h'
    subst h h'
    exact ⟨rfl, rfl, rfl, rfl, rfl, rfl, rfl, rfl, rfl⟩
  have key : ∀ (l : List (ℝ × State n × State n')) (o : Op n) (o' : Op n'), Same o o' i j → (∀ c ∈ l, c.2.1 i = c.2.2 j) →
      Same (calls o (l.map fun c => (c.1, c.2.1))) (calls o' (l.map fun c => (c.1, c.2.2))) i j := by
    intro l
    induction l with
    | nil => intro o o' h _; exact h
    | cons c l ih =>
      intro o o' h hl
      exact ih _ _ (same_call h c.1 c.2.1 c.2.2 (hl c (List.mem_cons_self ..))) (fun c hc => hl c (List.mem_cons_of_mem _ hc))
  exact key l o o' h0 hl

open Verif.Par
open Verif.Mesh (Tri BDict MeshData buildMesh)

/-- A row of the table. -/
def tableRow {n : ℕ} (o : Op n) (x y : Fin n → ℝ) (xll yll : ℝ) (i : Fin n) : List ℝ :=
  [x i + xll, y i + yll, o.stage i, o.depth i, o.speed i, o.speedDepth i]

variable {N width : ℕ} {epart : List ℕ} {tris : List Tri} {user : BDict} {m : MeshData} {parts : List Local}

/-- C105: on several processors, if every processor's operator is called at the times of the serial run and its own triangles then hold the serial values (whatever
the ghosts hold), each processor exports the rows of the serial table for its own triangles and no others, in the serial order. By `C65_every_triangle_owned_once` each row of
the serial table is in exactly one file. -/
theorem C105_parallel (hu : (user.map Prod.fst).Nodup) (hm : buildMesh tris user = .ok m) (hlen : epart.length = tris.length)
    (h : distribute N width epart tris m.boundary = .ok parts) (p : ℕ) (a : Local) (ha : parts[p]? = some a)
    {minH freq start : ℝ} {zeroH : Option ℝ} {o : Op a.tris.length} {o' : Op tris.length} (ho : mk a.tris.length minH freq start zeroH = some o)
    (ho' : mk tris.length minH freq start zeroH = some o') (l : List (ℝ × State a.tris.length × State tris.length))
    (x y : Fin a.tris.length → ℝ) (x' y' : Fin tris.length → ℝ) (xll yll : ℝ)
    (hl : ∀ c ∈ l, ∀ (k : Fin a.tris.length) (t : Fin tris.length), k.1 < a.nFull → a.triL2g[k.1]? = some t.1 → c.2.1 k = c.2.2 t)
    (hxy : ∀ (k : Fin a.tris.length) (t : Fin tris.length), k.1 < a.nFull → a.triL2g[k.1]? = some t.1 → x k = x' t ∧ y k = y' t) :
    ∃ own : List (Fin tris.length), own.map Fin.val = a.triL2g.take a.nFull ∧ own.Pairwise (· < ·) ∧
      exportRows (calls o (l.map fun c => (c.1, c.2.1))) (fun k => (ParFile.fullFlag N a).getD k 0) x y xll yll =
        own.map (tableRow (calls o' (l.map fun c => (c.1, c.2.2))) x' y' xll yll) := by
  obtain ⟨e1, _, _, _, e5, _⟩ := C65_local_copies hu hm hlen h p a ha
  have hflag : ∀ k : Fin a.tris.length, ((ParFile.fullFlag N a).getD k 0 ≠ 0) ↔ k.1 < a.nFull := by
    intro k
    obtain ⟨d, m', s, hp⟩ := distribute_ok hu hm hlen h
    obtain ⟨hpN, rfl⟩ := (parts_get hp p a).mp ha
    rw [List.getD_eq_getElem?_getD, ParFile.flag_eq s]
    by_cases hk : k.1 < (localOf d m' (ghostsOf d m' width) p).nFull
    · rw [if_pos hk]; simp [hk]
    · rw [if_neg hk, if_pos k.2]; simp [hk]
  have hget : ∀ k : Fin a.tris.length, ∃ t : Fin tris.length, a.triL2g[k.1]? = some t.1 := by
    intro k
    have hk : k.1 < a.triL2g.length := by rw [e1]; exact k.2
    obtain ⟨_, _, _, _, _, _, _, g, _⟩ := e5 k.1 a.triL2g[k.1] (List.getElem?_eq_getElem hk)
    exact ⟨⟨a.triL2g[k.1], (List.getElem?_eq_some_iff.mp g).1⟩, List.getElem?_eq_getElem hk⟩
  choose no hno using hget
  refine ⟨((List.finRange a.tris.length).filter fun k : Fin a.tris.length => (ParFile.fullFlag N a).getD k.1 0 ≠ 0).map no, ?_, ?_, ?_⟩
  · have e : (fun k : Fin a.tris.length => decide ((ParFile.fullFlag N a).getD k 0 ≠ 0)) = fun k => decide (k.1 < a.nFull) := by
      funext k
      exact decide_eq_decide.mpr (hflag k)
    rw [e, List.map_map]
    have hno' : (Fin.val ∘ no) = fun k => a.triL2g.getD k.1 0 := by
      funext k
      rw [List.getD_eq_getElem?_getD, hno k]
      rfl
    rw [hno']
    have hr : ∀ (n m : ℕ), (List.range n).filter (fun k => decide (k < m)) = (List.range n).take m := by
      intro n m
      induction n with
      | zero => simp
      | succ n ih =>
        rw [List.range_succ, List.filter_append, ih, List.take_append, List.length_range]
        congr 1
        by_cases hn : n < m
        · rw [List.filter_cons, if_pos (by simpa using hn), List.take_of_length_le (by simp; omega)]; rfl
        · rw [List.filter_cons, if_neg (by simpa using hn), Nat.sub_eq_zero_of_le (by omega)]; rfl
    have hf : ((List.finRange a.tris.length).filter fun k => decide (k.1 < a.nFull)).map Fin.val = (List.range a.tris.length).take a.nFull := by
      rw [← hr, ← List.map_coe_finRange_eq_range, List.filter_map]
      rfl
    have : ((List.finRange a.tris.length).filter fun k => decide (k.1 < a.nFull)).map (fun k => a.triL2g.getD k.1 0) =
        (((List.finRange a.tris.length).filter fun k => decide (k.1 < a.nFull)).map Fin.val).map fun k => a.triL2g.getD k 0 := by
      rw [List.map_map]; rfl
    rw [this, hf, List.map_take]
    congr 1
    apply List.ext_getElem?
    intro k
    rw [List.getElem?_map]
    by_cases hk : k < a.tris.length
    · rw [List.getElem?_range hk, Option.map_some, List.getD_eq_getElem?_getD, List.getElem?_eq_getElem (by rw [e1]; exact hk)]
      rfl
    · rw [List.getElem?_eq_none (by simpa using hk), List.getElem?_eq_none (by rw [e1]; omega)]
      rfl
  · rw [List.pairwise_map]
    have hp : ((List.finRange a.tris.length).filter fun k : Fin a.tris.length => (ParFile.fullFlag N a).getD k.1 0 ≠ 0).Pairwise (· < ·) :=
      (List.pairwise_lt_finRange _).filter _
    refine hp.imp_of_mem ?_
    intro k k' _ hk' hlt
    have hk'f : k'.1 < a.nFull := (hflag k').mp (by simpa using (List.mem_filter.mp hk').2)
    exact C65_serial_order hu hm hlen h p k.1 k'.1 (no k).1 (no k').1 a ha hlt hk'f (hno k) (hno k')
  · rw [List.map_map]
    unfold exportRows
    apply List.map_congr_left
    intro k hk
    have hkf : k.1 < a.nFull := (hflag k).mp (by simpa using (List.mem_filter.mp hk).2)
    have hs := C105_local ho ho' l k (no k) (fun c hc => hl c hc k (no k) hkf (hno k))
    obtain ⟨_, _, _, _, _, s1, s2, s3, s4⟩ := hs
    obtain ⟨x1, x2⟩ := hxy k (no k) hkf (hno k)
    show _ = [_, _, _, _, _, _]
    rw [s1, s2, s3, s4, x1, x2]

end Verif.MaxOps
