import Verif.Loop.Lemmas
import Mathlib.Tactic.Linarith
import Mathlib.Tactic.FieldSimp

/-!
# C83: the boundary polygon
-/

set_option linter.unusedSectionVars false

namespace Verif.Loop

open Verif.Polygon (Pt twoTri seenFrom polygonArea edges)

variable {K : Type*} [Field K] [LinearOrder K] [IsStrictOrderedRing K]
variable {M : Mesh K}

theorem mem_points (p : Pt K) : p ∈ M.points ↔ ∃ k < M.n, ∃ j < 3, p = M.corner k j := by
  unfold Mesh.points
  rw [List.mem_flatMap]
  simp only [List.mem_range, List.mem_cons, List.not_mem_nil, or_false]
  refine exists_congr fun k => and_congr_right fun _ => ?_
  constructor
  · rintro (h | h | h)
    · exact ⟨0, by omega, h⟩
    · exact ⟨1, by omega, h⟩
    · exact ⟨2, by omega, h⟩
  · rintro ⟨j, hj, h⟩
    rcases (by omega : j = 0 ∨ j = 1 ∨ j = 2) with rfl | rfl | rfl <;> tauto

theorem min_spec (l : List K) (h : l ≠ []) : (l.min?).getD 0 ∈ l ∧ ∀ x ∈ l, (l.min?).getD 0 ≤ x := by
  cases hm : l.min? with
  | none => exact absurd (List.min?_eq_none_iff.mp hm) h
  | some a => exact List.min?_eq_some_iff.mp hm

theorem max_spec (l : List K) (h : l ≠ []) : (l.max?).getD 0 ∈ l ∧ ∀ x ∈ l, x ≤ (l.max?).getD 0 := by
  cases hm : l.max? with
  | none => exact absurd (List.max?_eq_none_iff.mp hm) h
  | some a => exact List.max?_eq_some_iff.mp hm

theorem low (hn : 0 < M.n) : M.Low M.pmin := by
  have hne : M.points ≠ [] := List.ne_nil_of_mem ((mem_points (M.corner 0 0)).mpr ⟨0, hn, 0, by omega, rfl⟩)
  obtain ⟨x1, x2⟩ := min_spec (M.points.map Pt.x) (by simpa using hne)
  obtain ⟨y1, y2⟩ := min_spec (M.points.map Pt.y) (by simpa using hne)
  refine ⟨fun k hk j hj => ?_, ?_, ?_⟩
  · have := (mem_points (M := M) (M.corner k j)).mpr ⟨k, hk, j, hj, rfl⟩
    exact ⟨x2 _ (List.mem_map_of_mem this), y2 _ (List.mem_map_of_mem this)⟩
  · obtain ⟨p, hp, e⟩ := List.mem_map.mp x1
    obtain ⟨k, hk, j, hj, rfl⟩ := (mem_points p).mp hp
    exact ⟨k, hk, j, hj, e.symm⟩
  · obtain ⟨p, hp, e⟩ := List.mem_map.mp y1
    obtain ⟨k, hk, j, hj, rfl⟩ := (mem_points p).mp hp
    exact ⟨k, hk, j, hj, e.symm⟩

theorem high {k j : ℕ} (hk : k < M.n) (hj : j < 3) : (M.corner k j).x ≤ M.pmax.x ∧ (M.corner k j).y ≤ M.pmax.y := by
  have hm := (mem_points (M := M) (M.corner k j)).mpr ⟨k, hk, j, hj, rfl⟩
  have hne : M.points ≠ [] := List.ne_nil_of_mem hm
  exact ⟨(max_spec (M.points.map Pt.x) (by simpa using hne)).2 _ (List.mem_map_of_mem hm), (max_spec (M.points.map Pt.y) (by simpa using hne)).2 _ (List.mem_map_of_mem hm)⟩

theorem near {k j : ℕ} (hk : k < M.n) (hj : j < 3) : d2 (M.corner k j) M.pmin < d2 M.pmax M.pmin ∨ M.corner k j = M.pmax := by
  obtain ⟨h1, h2⟩ := (low (Nat.zero_lt_of_lt hk)).1 k hk j hj
  obtain ⟨h3, h4⟩ := high hk hj
  by_cases hx : (M.corner k j).x = M.pmax.x
  · by_cases hy : (M.corner k j).y = M.pmax.y
    · right
      cases hc : M.corner k j
      cases hm : M.pmax
      rw [hc, hm] at hx hy
      simp only at hx hy
      rw [hx, hy]
    · left
      unfold d2
      have := lt_of_le_of_ne h4 hy
      rw [hx]
      have : ((M.corner k j).y - M.pmin.y) ^ 2 < (M.pmax.y - M.pmin.y) ^ 2 := pow_lt_pow_left₀ (by linarith) (by linarith) two_ne_zero
      linarith
  · left
    unfold d2
    have := lt_of_le_of_ne h3 hx
    have k1 : ((M.corner k j).x - M.pmin.x) ^ 2 < (M.pmax.x - M.pmin.x) ^ 2 := pow_lt_pow_left₀ (by linarith) (by linarith) two_ne_zero
    have k2 : ((M.corner k j).y - M.pmin.y) ^ 2 ≤ (M.pmax.y - M.pmin.y) ^ 2 := pow_le_pow_left₀ (by linarith) (by linarith) 2
    linarith

theorem ends_ne (hc : M.Ccw) {k i : ℕ} (hk : k < M.n) {p q : Pt K} (h : M.Side k i p q) : p ≠ q := by
  have hpos := hc k hk
  obtain ⟨h1, h2⟩ := h
  unfold Polygon.twoTri at hpos
  rintro rfl
  rw [h1] at h2
  rcases (by omega : i % 3 = 0 ∨ i % 3 = 1 ∨ i % 3 = 2) with hi | hi | hi
  · rw [show (i + 1) % 3 = 1 by omega, show (i + 2) % 3 = 2 by omega] at h2
    rw [h2] at hpos
    nlinarith
  · rw [show (i + 1) % 3 = 2 by omega, show (i + 2) % 3 = 0 by omega] at h2
    rw [h2] at hpos
    nlinarith
  · rw [show (i + 1) % 3 = 0 by omega, show (i + 2) % 3 = 1 by omega] at h2
    rw [h2] at hpos
    nlinarith

theorem begins (hv : M.Valid) (hc : M.Ccw) (hb : M.boundary ≠ []) :
    ∃ p, start M.pmin M.segs (d2 M.pmax M.pmin) none = some p ∧ (∃ q, M.Bd p q ∨ M.Bd q p) ∧ ∀ a b, M.Bd a b → d2 p M.pmin ≤ d2 a M.pmin ∧ d2 p M.pmin ≤ d2 b M.pmin := by
  cases hB : M.boundary with
  | nil => exact absurd hB hb
  | cons x l =>
    obtain ⟨k, i⟩ := x
    have hm : (k, i) ∈ M.boundary := by rw [hB]; exact List.mem_cons_self
    obtain ⟨hk, hi⟩ := hv.range k i hm
    have hside := (seg_side (M := M) hi (M.seg k i).1 (M.seg k i).2).mp rfl
    have hne := ends_ne hc hk hside
    have hfirst : d2 (M.seg k i).1 M.pmin < d2 M.pmax M.pmin ∨ d2 (M.seg k i).2 M.pmin < d2 M.pmax M.pmin := by
      obtain ⟨e1, e2⟩ := hside
      rcases near hk (Nat.mod_lt (i + 1) (by omega : 0 < 3)) with h | h
      · left; rwa [e1]
      · rcases near hk (Nat.mod_lt (i + 2) (by omega : 0 < 3)) with h' | h'
        · right; rwa [e2]
        · exact absurd (by rw [e1, e2, h, h']) hne
    obtain ⟨r, k1, k2, -, k4⟩ := start_spec M.pmin M.segs (d2 M.pmax M.pmin) none (by simp)
      (Or.inr ⟨M.seg k i, by simp [Mesh.segs, hB], hfirst⟩)
    refine ⟨r, k1, ?_, fun a b hab => k4 (a, b) ((mem_segs hv a b).mpr hab)⟩
    rcases k2 with k2 | ⟨⟨a, b⟩, e1, e2⟩
    · simp at k2
    · have := (mem_segs hv a b).mp e1
      rcases e2 with rfl | rfl
      · exact ⟨b, Or.inl this⟩
      · exact ⟨a, Or.inr this⟩

/-- **C83.** If no point is the start of two boundary edges, the result is a loop of boundary edges in their direction (mesh on the left), without
repetition, starting with a boundary point nearest to the lower left corner of the extent; the loop ends after as many rounds as there are boundary edges. -/
theorem C83_loop (hv : M.Valid) (hs : M.Simple) (hc : M.Ccw) (hb : M.boundary ≠ []) (ang : Pt K → Pt K → K) (pi : K) {rounds : ℕ} (hr : M.boundary.length ≤ rounds) :
    ∃ P, M.boundaryPolygon ang pi rounds = .polygon P ∧ P.Nodup ∧ Closed M.Bd P ∧
      ∃ p c, P.head? = some p ∧ M.Low c ∧ ∀ a b, M.Bd a b →
        (p.x - c.x) ^ 2 + (p.y - c.y) ^ 2 ≤ (a.x - c.x) ^ 2 + (a.y - c.y) ^ 2 ∧ (p.x - c.x) ^ 2 + (p.y - c.y) ^ 2 ≤ (b.x - c.x) ^ 2 + (b.y - c.y) ^ 2 := by
  obtain ⟨p, k1, ⟨q, k2⟩, k3⟩ := begins hv hc hb
  have hperm := degrees hv
  have hnod := simple_nodup hv hs
  have hfirst : p ∈ M.segs.map Prod.fst := by
    rcases k2 with h | h
    · exact List.mem_map.mpr ⟨_, (mem_segs hv _ _).mpr h, rfl⟩
    · exact hperm.mem_iff.mpr (List.mem_map.mpr ⟨_, (mem_segs hv _ _).mpr h, rfl⟩)
  have hpath : Path M.segs [p] := ⟨by simp, by simp, fun j hj => by simp at hj, hfirst⟩
  obtain ⟨Q, q1, q2, q3, q4⟩ := walk_simple ang pi hperm hnod rounds [p] hpath (by simp [Mesh.segs]; omega)
  have hn : 0 < M.n := by
    obtain ⟨⟨k, i⟩, hm⟩ := List.exists_mem_of_ne_nil _ hb
    exact Nat.zero_lt_of_lt (hv.range k i hm).1
  refine ⟨Q, ?_, q2, fun j hj => (mem_segs hv _ _).mp (q4 j hj), p, M.pmin, by rw [q3]; rfl, low hn, fun a b hab => k3 a b hab⟩
  unfold Mesh.boundaryPolygon
  rw [k1]
  exact q1

theorem closed_edges {E : List (Pt K × Pt K)} {P : List (Pt K)} (h : Closed (fun p q => (p, q) ∈ E) P) {e : Pt K × Pt K} (he : e ∈ edges P) : e ∈ E := by
  obtain ⟨j, hj, rfl⟩ := List.mem_iff_getElem.mp he
  rw [Polygon.edges_length] at hj
  rw [Polygon.edges_get P j hj]
  exact h j hj

theorem edges_nodup {P : List (Pt K)} (h : P.Nodup) : (edges P).Nodup := by
  refine List.Nodup.of_map Prod.fst ?_
  unfold Polygon.edges
  rw [List.map_fst_zip (by simp)]
  exact h

theorem tri_sum (q : Pt K) (hv : M.Valid) : (M.segs.map fun e => twoTri q e.1 e.2).sum / 2 = M.area := by
  rw [← sum_sides (fun e : Pt K × Pt K => twoTri q e.1 e.2) (fun a => by unfold Polygon.twoTri; ring) (fun a b => by unfold Polygon.twoTri; ring) hv]
  unfold Mesh.area
  rw [Finset.sum_div]
  refine Finset.sum_congr rfl fun k _ => ?_
  simp only [Finset.sum_range_succ, Finset.sum_range_zero, Mesh.seg, Polygon.twoTri]
  simp
  ring

/-- **C83.** Its signed area, seen from any point, is the area of the mesh less that of the boundary edges not on it. -/
theorem C83_area (hv : M.Valid) (hs : M.Simple) {P : List (Pt K)} (hn : P.Nodup) (hP : Closed M.Bd P) (q : Pt K) :
    seenFrom q P = M.area - ((M.segs.filter fun e => decide (e ∉ edges P)).map fun e => twoTri q e.1 e.2).sum / 2 := by
  have hP' : Closed (fun p q => (p, q) ∈ M.segs) P := fun j hj => (mem_segs hv _ _).mpr (hP j hj)
  have hE : M.segs.Nodup := List.Nodup.of_map Prod.fst (simple_nodup hv hs)
  have hperm : (edges P).Perm (M.segs.filter fun e => decide (e ∈ edges P)) := by
    rw [List.perm_ext_iff_of_nodup (edges_nodup hn) (hE.filter _)]
    intro e
    rw [List.mem_filter, decide_eq_true_eq]
    exact ⟨fun h => ⟨closed_edges hP' h, h⟩, fun h => h.2⟩
  have hsplit : ∀ (f : Pt K × Pt K → K) (E : List (Pt K × Pt K)), ((E.filter fun e => decide (e ∈ edges P)).map f).sum + ((E.filter fun e => decide (e ∉ edges P)).map f).sum = (E.map f).sum := by
    intro f E
    induction E with
    | nil => simp
    | cons e E ih =>
      by_cases he : e ∈ edges P
      · rw [List.filter_cons_of_pos (by simpa using he), List.filter_cons_of_neg (by simpa using he)]
        simp only [List.map_cons, List.sum_cons]
        linarith
      · rw [List.filter_cons_of_neg (by simpa using he), List.filter_cons_of_pos (by simpa using he)]
        simp only [List.map_cons, List.sum_cons]
        linarith
  rw [Polygon.seenFrom_sumE, ← tri_sum q hv, ← hsplit]
  unfold Polygon.sumE
  rw [(hperm.map fun e => twoTri q e.1 e.2).sum_eq]
  ring

/-- **C83.** If the boundary is one loop, the polygon has all boundary edges, its area is that of the mesh, and it is anticlockwise. -/
theorem C83_one_loop (hv : M.Valid) (hs : M.Simple) (hc : M.Ccw) (h1 : M.OneLoop) {P : List (Pt K)} (hn : P.Nodup) (hP : Closed M.Bd P) (hne : P ≠ []) :
    (∀ a b, M.Bd a b ↔ (a, b) ∈ edges P) ∧ (∀ q, seenFrom q P = M.area) ∧ polygonArea P = M.area ∧ 0 < M.area := by
  have hP' : Closed (fun p q => (p, q) ∈ M.segs) P := fun j hj => (mem_segs hv _ _).mpr (hP j hj)
  have hpos : 0 < P.length := List.length_pos_of_ne_nil hne
  have hnod := simple_nodup hv hs
  have step : ∀ a b, M.Bd a b → a ∈ P → (a, b) ∈ edges P ∧ b ∈ P := by
    intro a b hab ha
    obtain ⟨j, hj, rfl⟩ := List.mem_iff_getElem.mp ha
    have h2 := fst_inj hnod ((mem_segs hv _ _).mpr hab) (hP' j hj)
    refine ⟨?_, by rw [h2]; exact List.getElem_mem _⟩
    have := List.getElem_mem (l := edges P) (n := j) (by rw [Polygon.edges_length]; exact hj)
    rw [Polygon.edges_get P j hj] at this
    rwa [h2]
  have reach : ∀ a, Relation.ReflTransGen M.Bd P[0] a → a ∈ P := by
    intro a h
    induction h with
    | refl => exact List.getElem_mem _
    | tail _ hbc ih => exact (step _ _ hbc ih).2
  have hall : ∀ a b, M.Bd a b ↔ (a, b) ∈ edges P := fun a b =>
    ⟨fun h => (step a b h (reach a (h1 _ _ _ _ (hP 0 hpos) h))).1, fun h => (mem_segs hv _ _).mp (closed_edges hP' h)⟩
  have harea : ∀ q, seenFrom q P = M.area := by
    intro q
    rw [C83_area hv hs hn hP q]
    have : (M.segs.filter fun e => decide (e ∉ edges P)) = [] := by
      rw [List.filter_eq_nil_iff]
      rintro ⟨a, b⟩ he
      simpa using (hall a b).mp ((mem_segs hv _ _).mp he)
    rw [this]
    simp
  have hn0 : 0 < M.n := by
    obtain ⟨k, i, hm, -⟩ := hP 0 hpos
    exact Nat.zero_lt_of_lt (hv.range k i hm).1
  have hpa : 0 < M.area := by
    unfold Mesh.area
    refine Finset.sum_pos (fun k hk => ?_) ⟨0, Finset.mem_range.mpr hn0⟩
    have := hc k (Finset.mem_range.mp hk)
    linarith
  refine ⟨hall, harea, ?_, hpa⟩
  rw [Polygon.C19_seen_from_anywhere P ⟨0, 0⟩, harea, abs_of_pos hpa]

theorem choose_mem (ang : Pt K → Pt K → K) (pi : K) (prev p0 : Pt K) (l : List (Pt K)) {r : Pt K} (h : choose ang pi prev p0 l = some r) : r ∈ l := by
  unfold choose at h
  have key : ∀ (l' : List (Pt K)) (s : K × Option (Pt K)), (∀ x, s.2 = some x → x ∈ l) → (∀ x ∈ l', x ∈ l) → ∀ x, (l'.foldl (fun s pc =>
      let ac := ang (sub pc p0) prev
      let ac := if ac > pi then ac - 2 * pi else ac
      if ac < s.1 then (ac, some pc) else s) s).2 = some x → x ∈ l := by
    intro l'
    induction l' with
    | nil => intro s hs _ x hx; exact hs x hx
    | cons a l' ih =>
      intro s hs hl x hx
      rw [List.foldl_cons] at hx
      refine ih _ ?_ (fun y hy => hl y (List.mem_cons_of_mem _ hy)) x hx
      intro y hy
      simp only at hy
      by_cases hc : (if ang (sub a p0) prev > pi then ang (sub a p0) prev - 2 * pi else ang (sub a p0) prev) < s.1
      · rw [if_pos hc] at hy
        simp only [Option.some.injEq] at hy
        exact hy ▸ hl a List.mem_cons_self
      · rw [if_neg hc] at hy
        exact hs y hy
  exact key l (2 * pi, none) (by simp) (fun x hx => hx) r h

theorem next_mem (ang : Pt K → Pt K → K) (pi : K) {E : List (Pt K × Pt K)} {poly : List (Pt K)} {p q : Pt K} (h : next ang pi E poly p = some q) : (p, q) ∈ E := by
  have hc : ∀ q, q ∈ candidates E p → (p, q) ∈ E := by
    intro q hq
    unfold candidates at hq
    obtain ⟨⟨a, b⟩, h1, rfl⟩ := List.mem_map.mp hq
    rw [List.mem_filter, decide_eq_true_eq] at h1
    simp only at h1
    rw [← h1.2]
    exact h1.1
  unfold next at h
  split at h
  · simp at h
  · rename_i r hr
    simp only [Option.some.injEq] at h
    subst h
    exact hc _ (by rw [hr]; simp)
  · exact hc _ (choose_mem ang pi _ _ _ h)

/-- **C83.** Whatever the mesh, if there is a result, its consecutive points are joined by boundary edges in their direction. -/
theorem C83_path (hv : M.Valid) {ang : Pt K → Pt K → K} {pi : K} {rounds : ℕ} {P : List (Pt K)} (h : M.boundaryPolygon ang pi rounds = .polygon P) (j : ℕ)
    (hj : j + 1 < P.length) : M.Bd P[j] P[j + 1] := by
  have key : ∀ (rounds : ℕ) (poly reg : List (Pt K)) (p0 : Pt K), poly.getLast? = some p0 → (∀ j, (h : j + 1 < poly.length) → (poly[j], poly[j + 1]) ∈ M.segs) →
      ∀ P, walk ang pi M.segs rounds poly reg p0 = .polygon P → ∀ j, (h : j + 1 < P.length) → (P[j], P[j + 1]) ∈ M.segs := by
    intro rounds
    induction rounds with
    | zero => intro poly reg p0 _ _ P h; simp [walk] at h
    | succ rounds ih =>
      intro poly reg p0 hl hs P h
      have push : ∀ p1, (p0, p1) ∈ M.segs → ∀ j, (h : j + 1 < (poly ++ [p1]).length) → ((poly ++ [p1])[j], (poly ++ [p1])[j + 1]) ∈ M.segs := by
        intro p1 he j hj
        rw [List.length_append, List.length_singleton] at hj
        by_cases hj' : j + 1 < poly.length
        · rw [List.getElem_append_left (by omega), List.getElem_append_left hj']
          exact hs j hj'
        · have e : j = poly.length - 1 := by omega
          have hpos : 0 < poly.length := by omega
          subst e
          rw [List.getElem_append_left (by omega), List.getElem_append_right (by omega)]
          rw [List.getLast?_eq_getElem?, List.getElem?_eq_getElem (by omega), Option.some.injEq] at hl
          rw [hl]
          simpa using he
      unfold walk at h
      split at h
      · split at h
        · simp at h
        · rename_i p1 hp1
          have he := next_mem ang pi hp1
          split at h
          · split at h
            · simp only [Res.polygon.injEq] at h
              subst h
              exact hs
            · exact ih _ _ _ (by simp) (push p1 he) P h
          · exact ih _ _ _ (by simp) (push p1 he) P h
      · simp only [Res.polygon.injEq] at h
        subst h
        exact hs
  unfold Mesh.boundaryPolygon at h
  split at h
  · simp at h
  · rename_i p0 hp0
    exact (mem_segs hv _ _).mp (key rounds [p0] [p0] p0 rfl (fun j hj => by simp at hj) P h j hj)

end Verif.Loop
