import Verif.Interp.Spec
import Verif.Sparse.Props
import Verif.Polygon.Props

/-! # The interpolation matrix row by row -/

namespace Verif.Interp

set_option linter.unusedSectionVars false

open Verif.Polygon (Pt Flat insidePolygon outsidePolygon inAndOutside isInsidePolygon C17_both C17_inside C17_outside)
open Verif.Quad (Tri)
open Verif.Sparse (Mat Expr)

variable {K : Type*} [Field K] [LinearOrder K] [IsStrictOrderedRing K]

/-- Weights used for a point found in triangle `t`. -/
def weights (sq : K → K) (c : Bool) (t : Tri K) (x : Pt K) : K × K × K := if c then (1 / 3, 1 / 3, 1 / 3) else Verif.Quad.sigma sq t x

/-- Value at one point. -/
def valueAt (sq : K → K) (m : Mesh K) (c : Bool) (f : List K) (x : Pt K) : Option K :=
  if isInsidePolygon sq true x m.boundary = some true then
    match m.tree.search x with
    | some t =>
      let js := m.tri t.index
      let w := weights sq c t x
      some (w.1 * f.getD js.1 0 + w.2.1 * f.getD js.2.1 0 + w.2.2 * f.getD js.2.2 0)
    | none => none
  else none

/-- A chain of assignments as an expression. -/
def chain (es : List (ℕ × ℕ × K)) (e : Expr K) : Expr K := es.foldl (fun e s => .set e s.1 s.2.1 s.2.2) e

theorem chain_append (as bs : List (ℕ × ℕ × K)) (e : Expr K) : chain (as ++ bs) e = chain bs (chain as e) := List.foldl_append

theorem chain_eval (es : List (ℕ × ℕ × K)) : ∀ e : Expr K,
    (chain es e).eval = e.eval.bind fun A => es.foldlM (fun (A : Mat K) s => A.set s.1 s.2.1 s.2.2) A := by
  induction es with
  | nil => intro e; simp [chain]
  | cons s es ih =>
    intro e
    show (chain es (.set e s.1 s.2.1 s.2.2)).eval = _
    rw [ih]
    simp only [Expr.eval, List.foldlM_cons, Option.bind_eq_bind, Option.bind_assoc]

theorem chain_dims (es : List (ℕ × ℕ × K)) : ∀ e : Expr K, (chain es e).dims = e.dims := by
  induction es with
  | nil => intro e; rfl
  | cons s es ih => intro e; exact (ih _).trans rfl

theorem chain_ok (es : List (ℕ × ℕ × K)) : ∀ e : Expr K, e.Ok → (∀ s ∈ es, s.1 < e.dims.1 ∧ s.2.1 < e.dims.2) → (chain es e).Ok := by
  induction es with
  | nil => intro e h _; exact h
  | cons s es ih =>
    intro e h hs
    exact ih _ ⟨h, hs s (by simp)⟩ fun r hr => hs r (List.mem_cons_of_mem _ hr)

theorem chain_other (es : List (ℕ × ℕ × K)) (i j : ℕ) : ∀ e : Expr K, (∀ s ∈ es, s.1 ≠ i) → (chain es e).den i j = e.den i j := by
  induction es with
  | nil => intro e _; rfl
  | cons s es ih =>
    intro e h
    refine (ih _ fun r hr => h r (List.mem_cons_of_mem _ hr)).trans ?_
    show (if i = s.1 ∧ j = s.2.1 then s.2.2 else e.den i j) = _
    rw [if_neg]
    rintro ⟨h1, -⟩
    exact h s (by simp) h1.symm

theorem rowSets_row {c : Bool} {i : ℕ} {js : ℕ × ℕ × ℕ} {w : K × K × K} {s : ℕ × ℕ × K} (h : s ∈ rowSets c i js w) :
    s.1 = i ∧ (s.2.1 = js.1 ∨ s.2.1 = js.2.1 ∨ s.2.1 = js.2.2) := by
  unfold rowSets at h
  simp only [List.map_cons, List.map_nil, List.mem_cons, List.not_mem_nil, or_false] at h
  rcases h with rfl | rfl | rfl <;> simp

/-- Rows written and points set aside by the loop. -/
theorem loop_spec (sq : K → K) (m : Mesh K) (c : Bool) (pts : List (Pt K)) : ∀ is : List ℕ, is.Nodup →
    (∀ s ∈ (buildLoop sq m c pts is).1, ∃ i x t, i ∈ is ∧ pts[i]? = some x ∧ m.tree.search x = some t ∧
      s ∈ rowSets c i (m.tri t.index) (Verif.Quad.sigma sq t x)) ∧
    (∀ i, i ∈ (buildLoop sq m c pts is).2 ↔ i ∈ is ∧ ∃ x, pts[i]? = some x ∧ m.tree.search x = none) ∧
    (∀ i ∈ is, ∀ x t, pts[i]? = some x → m.tree.search x = some t → ∃ pre post,
      (buildLoop sq m c pts is).1 = pre ++ rowSets c i (m.tri t.index) (Verif.Quad.sigma sq t x) ++ post ∧
        (∀ s ∈ pre, s.1 ≠ i) ∧ ∀ s ∈ post, s.1 ≠ i) := by
  intro is
  induction is with
  | nil => intro _; simp [buildLoop]
  | cons k is ih =>
    intro hn
    obtain ⟨hk, hn⟩ := List.nodup_cons.1 hn
    obtain ⟨h1, h2, h3⟩ := ih hn
    have row : ∀ s ∈ (buildLoop sq m c pts is).1, s.1 ≠ k := by
      intro s hs e
      obtain ⟨i, x, t, hi, -, -, hr⟩ := h1 s hs
      rw [(rowSets_row hr).1] at e
      exact hk (e ▸ hi)
    cases hx : pts[k]? with
    | none =>
      have e : buildLoop sq m c pts (k :: is) = buildLoop sq m c pts is := by simp only [buildLoop, hx]
      rw [e]
      refine ⟨fun s hs => ?_, fun i => ?_, fun i hi x t h4 h5 => ?_⟩
      · obtain ⟨i, x, t, hi, hr⟩ := h1 s hs
        exact ⟨i, x, t, List.mem_cons_of_mem _ hi, hr⟩
      · rw [h2, List.mem_cons]
        constructor
        · rintro ⟨h, h'⟩; exact ⟨Or.inr h, h'⟩
        · rintro ⟨rfl | h, x, h4, h5⟩
          · rw [hx] at h4; simp at h4
          · exact ⟨h, x, h4, h5⟩
      · rcases List.mem_cons.1 hi with rfl | hi
        · rw [hx] at h4; simp at h4
        · exact h3 i hi x t h4 h5
    | some y =>
      cases hf : m.tree.search y with
      | none =>
        have e : buildLoop sq m c pts (k :: is) = ((buildLoop sq m c pts is).1, k :: (buildLoop sq m c pts is).2) := by
          simp [buildLoop, hx, Verif.Quad.searchFast, hf]
        rw [e]
        refine ⟨fun s hs => ?_, fun i => ?_, fun i hi x t h4 h5 => ?_⟩
        · obtain ⟨i, x, t, hi, hr⟩ := h1 s hs
          exact ⟨i, x, t, List.mem_cons_of_mem _ hi, hr⟩
        · simp only [List.mem_cons, h2]
          constructor
          · rintro (rfl | ⟨h, h'⟩)
            · exact ⟨Or.inl rfl, y, hx, hf⟩
            · exact ⟨Or.inr h, h'⟩
          · rintro ⟨rfl | h, h'⟩
            · exact Or.inl rfl
            · exact Or.inr ⟨h, h'⟩
        · rcases List.mem_cons.1 hi with rfl | hi
          · rw [hx] at h4
            obtain rfl := Option.some.inj h4
            rw [hf] at h5; simp at h5
          · exact h3 i hi x t h4 h5
      | some u =>
        have e : buildLoop sq m c pts (k :: is) =
            (rowSets c k (m.tri u.index) (Verif.Quad.sigma sq u y) ++ (buildLoop sq m c pts is).1, (buildLoop sq m c pts is).2) := by
          simp [buildLoop, hx, Verif.Quad.searchFast, hf]
        rw [e]
        refine ⟨fun s hs => ?_, fun i => ?_, fun i hi x t h4 h5 => ?_⟩
        · rcases List.mem_append.1 hs with hs | hs
          · exact ⟨k, y, u, by simp, hx, hf, hs⟩
          · obtain ⟨i, x, t, hi, hr⟩ := h1 s hs
            exact ⟨i, x, t, List.mem_cons_of_mem _ hi, hr⟩
        · simp only [h2, List.mem_cons]
          constructor
          · rintro ⟨h, h'⟩; exact ⟨Or.inr h, h'⟩
          · rintro ⟨rfl | h, x, h4, h5⟩
            · rw [hx] at h4
              obtain rfl := Option.some.inj h4
              rw [hf] at h5; simp at h5
            · exact ⟨h, x, h4, h5⟩
        · rcases List.mem_cons.1 hi with rfl | hi
          · rw [hx] at h4
            obtain rfl := Option.some.inj h4
            rw [hf] at h5
            obtain rfl := Option.some.inj h5
            exact ⟨[], _, rfl, by simp, row⟩
          · obtain ⟨pre, post, e1, e2, e3⟩ := h3 i hi x t h4 h5
            refine ⟨rowSets c k (m.tri u.index) (Verif.Quad.sigma sq u y) ++ pre, post, by simp only [e1, List.append_assoc], fun s hs => ?_, e3⟩
            rcases List.mem_append.1 hs with hs | hs
            · rw [(rowSets_row hs).1]
              rintro rfl
              exact hk hi
            · exact e2 s hs

theorem sum_three (N : ℕ) (js : ℕ × ℕ × ℕ) (h0 : js.1 < N) (h1 : js.2.1 < N) (h2 : js.2.2 < N) (d01 : js.1 ≠ js.2.1) (d02 : js.1 ≠ js.2.2)
    (d12 : js.2.1 ≠ js.2.2) (w : K × K × K) (g : ℕ → K) :
    ∑ j ∈ Finset.range N, (if j = js.2.2 then w.2.2 else if j = js.2.1 then w.2.1 else if j = js.1 then w.1 else 0) * g j =
      w.1 * g js.1 + w.2.1 * g js.2.1 + w.2.2 * g js.2.2 := by
  have e : ∀ j, (if j = js.2.2 then w.2.2 else if j = js.2.1 then w.2.1 else if j = js.1 then w.1 else 0) * g j =
      (if j = js.1 then w.1 * g j else 0) + (if j = js.2.1 then w.2.1 * g j else 0) + (if j = js.2.2 then w.2.2 * g j else 0) := by
    intro j
    by_cases a : j = js.2.2
    · rw [if_pos a, if_neg (by rw [a]; exact fun h => d02 h.symm), if_neg (by rw [a]; exact fun h => d12 h.symm), if_pos a]; ring
    · by_cases b : j = js.2.1
      · rw [if_neg a, if_pos b, if_neg (by rw [b]; exact fun h => d01 h.symm), if_pos b, if_neg a]; ring
      · by_cases cc : j = js.1
        · rw [if_neg a, if_neg b, if_pos cc, if_pos cc, if_neg b, if_neg a]; ring
        · rw [if_neg a, if_neg b, if_neg cc, if_neg cc, if_neg b, if_neg a]; ring
  rw [Finset.sum_congr rfl fun j _ => e j, Finset.sum_add_distrib, Finset.sum_add_distrib, Finset.sum_ite_eq', Finset.sum_ite_eq',
    Finset.sum_ite_eq', if_pos (Finset.mem_range.2 h0), if_pos (Finset.mem_range.2 h1), if_pos (Finset.mem_range.2 h2)]

theorem rowSets_den (c : Bool) (i : ℕ) (js : ℕ × ℕ × ℕ) (d01 : js.1 ≠ js.2.1) (d02 : js.1 ≠ js.2.2)
    (d12 : js.2.1 ≠ js.2.2) (w : K × K × K) (e : Expr K) (he : ∀ j, e.den i j = 0) (j : ℕ) :
    (chain (rowSets c i js w) e).den i j =
      let u : K × K × K := if c then (1 / 3, 1 / 3, 1 / 3) else w
      if j = js.2.2 then u.2.2 else if j = js.2.1 then u.2.1 else if j = js.1 then u.1 else 0 := by
  unfold rowSets chain
  simp only [List.map_cons, List.map_nil, List.foldl_cons, List.foldl_nil, Expr.den, he, true_and, sigmaOf]
  cases c
  · simp only [Bool.false_eq_true, if_false, if_true, if_neg d12, if_neg d01, if_neg d02]
  · simp only [if_true]

theorem tri_of_fits {m : Mesh K} {pos : ℕ → Pt K} {ts : List (Tri K)} (hm : Fits m pos ts) {t : Tri K} (ht : t ∈ ts) :
    m.tris[t.index]? = some (m.tri t.index) ∧ (m.tri t.index).1 < m.nodes ∧ (m.tri t.index).2.1 < m.nodes ∧ (m.tri t.index).2.2 < m.nodes ∧
      t.a = pos (m.tri t.index).1 ∧ t.b = pos (m.tri t.index).2.1 ∧ t.c = pos (m.tri t.index).2.2 ∧
      (m.tri t.index).1 ≠ (m.tri t.index).2.1 ∧ (m.tri t.index).1 ≠ (m.tri t.index).2.2 ∧ (m.tri t.index).2.1 ≠ (m.tri t.index).2.2 := by
  obtain ⟨a, b, c, h1, h2, h3, h4, h5, h6, h7⟩ := hm.nodes t ht
  have e : m.tri t.index = (a, b, c) := by
    unfold Mesh.tri
    rw [Int.toNat_natCast, List.getD_eq_getElem?_getD, h1]
    rfl
  rw [e]
  refine ⟨h1, h2, h3, h4, h5, h6, h7, fun h => ?_, fun h => ?_, fun h => ?_⟩
  · apply hm.proper t ht
    have : t.a = t.b := by rw [h5, h6]; exact congrArg pos h
    unfold Flat
    rw [this]
    ring
  · apply hm.proper t ht
    have : t.a = t.c := by rw [h5, h7]; exact congrArg pos h
    unfold Flat
    rw [this]
    ring
  · apply hm.proper t ht
    have : t.b = t.c := by rw [h6, h7]; exact congrArg pos h
    unfold Flat
    rw [this]
    ring

theorem search_mem {m : Mesh K} {pos : ℕ → Pt K} {ts : List (Tri K)} (hm : Fits m pos ts) {x : Pt K} {t : Tri K}
    (h : m.tree.search x = some t) : t ∈ ts ∧ Verif.Quad.Almost t x := by
  obtain ⟨fuel, root, hT⟩ := hm.tree
  exact Verif.Quad.C27_found_contains fuel root ts m.tree hT x t h

/-- The matrix and the list of outside points are right for every point. -/
theorem build_spec {m : Mesh K} {pos : ℕ → Pt K} {ts : List (Tri K)} (hm : Fits m pos ts) (sq : K → K) (c : Bool) (pts : List (Pt K)) :
    ∃ b, build sq m c pts = some b ∧ (∀ f : List K, f.length = m.nodes → b.apply f = some (pts.map (valueAt sq m c f))) ∧
      (∀ f : List K, f.length ≠ m.nodes → b.apply f = none) ∧
      ∀ (i : ℕ) (x : Pt K), pts[i]? = some x →
        (i ∈ b.outside ↔ ¬ (isInsidePolygon sq true x m.boundary = some true ∧ ∃ t, m.tree.search x = some t)) := by
  obtain ⟨hin, -⟩ := C17_both sq true pts m.boundary
  obtain ⟨hsort, hmem⟩ := C17_inside sq true pts m.boundary
  obtain ⟨-, hout, -, -⟩ := C17_outside sq true pts m.boundary
  have hnd : (insidePolygon sq true pts m.boundary).Nodup := hsort.imp fun h => Nat.ne_of_lt h
  obtain ⟨l1, l2, l3⟩ := loop_spec sq m c pts _ hnd
  set L := buildLoop sq m c pts (insidePolygon sq true pts m.boundary) with hL
  have hok : (chain L.1 (.zero pts.length m.nodes)).Ok := by
    refine chain_ok _ _ trivial fun s hs => ?_
    obtain ⟨i, x, t, -, hx, ht, hr⟩ := l1 s hs
    obtain ⟨-, b1, b2, b3, -⟩ := tri_of_fits hm (search_mem hm ht).1
    obtain ⟨r1, r2⟩ := rowSets_row hr
    obtain ⟨hlt, -⟩ := List.getElem?_eq_some_iff.1 hx
    refine ⟨by rw [r1]; exact hlt, ?_⟩
    show s.2.1 < m.nodes
    rcases r2 with r | r | r <;> rw [r] <;> assumption
  obtain ⟨A, hA, hv, -, -, hbad, -⟩ := Verif.Sparse.C21_products _ hok
  rw [chain_dims] at hv hbad
  have hb : build sq m c pts = some ⟨A, outsidePolygon sq true pts m.boundary ++ L.2⟩ := by
    rw [chain_eval] at hA
    simp only [Expr.eval, Option.bind_some] at hA
    unfold build
    simp only [hin, ← hL]
    rw [hA]
    rfl
  have inside_iff : ∀ (i : ℕ) (x : Pt K), pts[i]? = some x →
      (i ∈ insidePolygon sq true pts m.boundary ↔ isInsidePolygon sq true x m.boundary = some true) := by
    intro i x hx
    obtain ⟨hlt, he⟩ := List.getElem?_eq_some_iff.1 hx
    rw [hmem]
    constructor
    · rintro ⟨_, h⟩; rw [← he]; exact h
    · intro h; exact ⟨hlt, by rw [he]; exact h⟩
  have hoc : ∀ (i : ℕ) (x : Pt K), pts[i]? = some x → (i ∈ outsidePolygon sq true pts m.boundary ++ L.2 ↔
      ¬ (isInsidePolygon sq true x m.boundary = some true ∧ ∃ t, m.tree.search x = some t)) := by
    intro i x hx
    rw [List.mem_append, hout, l2, ← inside_iff i x hx]
    obtain ⟨hlt, -⟩ := List.getElem?_eq_some_iff.1 hx
    constructor
    · rintro (⟨-, h⟩ | ⟨-, y, hy, h⟩) ⟨h1, t, h2⟩
      · exact h h1
      · rw [hx] at hy
        obtain rfl := Option.some.inj hy
        rw [h] at h2; simp at h2
    · intro h
      by_cases h1 : i ∈ insidePolygon sq true pts m.boundary
      · right
        refine ⟨h1, x, hx, ?_⟩
        cases h2 : m.tree.search x with
        | none => rfl
        | some t => exact absurd ⟨h1, t, h2⟩ h
      · exact Or.inl ⟨hlt, h1⟩
  refine ⟨_, hb, fun f hf => ?_, fun f hf => ?_, fun i x hx => hoc i x hx⟩
  · obtain ⟨z, hz, hzl, hzv⟩ := hv f hf
    have hzl : z.length = pts.length := hzl
    unfold Built.apply
    simp only
    rw [hz]
    simp only [Option.map_some, Option.some.injEq]
    apply List.ext_getElem
    · simp [hzl]
    · intro i h1 h2
      rw [List.getElem_map, List.getElem_map, List.getElem_range]
      have hi : i < pts.length := by simpa using h2
      have hx : pts[i]? = some pts[i] := List.getElem?_eq_getElem hi
      by_cases hc : isInsidePolygon sq true pts[i] m.boundary = some true ∧ ∃ t, m.tree.search pts[i] = some t
      · rw [if_neg (fun h => (hoc i _ hx).1 h hc)]
        obtain ⟨hc1, t, ht⟩ := hc
        obtain ⟨pre, post, e1, e2, e3⟩ := l3 i ((inside_iff i _ hx).2 hc1) _ t hx ht
        obtain ⟨-, b1, b2, b3, -, -, -, d1, d2, d3⟩ := tri_of_fits hm (search_mem hm ht).1
        have hval := hzv i hi
        have hden : ∀ j, (chain L.1 (.zero pts.length m.nodes)).den i j =
            (let u : K × K × K := if c then (1 / 3, 1 / 3, 1 / 3) else Verif.Quad.sigma sq t pts[i]
            if j = (m.tri t.index).2.2 then u.2.2 else if j = (m.tri t.index).2.1 then u.2.1 else if j = (m.tri t.index).1 then u.1 else 0) := by
          intro j
          rw [e1, List.append_assoc, chain_append, chain_append, chain_other _ _ _ _ e3]
          exact rowSets_den c i _ d1 d2 d3 _ _ (fun j' => chain_other _ _ _ _ e2) j
        simp only [hden] at hval
        have hs3 := sum_three m.nodes (m.tri t.index) b1 b2 b3 d1 d2 d3
          (if c then ((1 : K) / 3, (1 : K) / 3, (1 : K) / 3) else Verif.Quad.sigma sq t pts[i]) (fun j => f.getD j 0)
        have hz' : z[i]? = some (z.getD i 0) := by
          rw [List.getD_eq_getElem?_getD, List.getElem?_eq_getElem (by omega)]
          rfl
        rw [hz', hval]
        unfold valueAt weights
        rw [if_pos hc1, ht]
        simp only
        rw [← hs3]
        rfl
      · rw [if_pos ((hoc i _ hx).2 hc)]
        unfold valueAt
        split_ifs with h3
        · cases ht : m.tree.search pts[i] with
          | none => rfl
          | some t => exact absurd ⟨h3, t, ht⟩ hc
        · rfl
  · unfold Built.apply
    simp only
    rw [hbad f hf]
    rfl

end Verif.Interp
