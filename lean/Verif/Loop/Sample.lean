import Verif.Loop.PropsAngle
import Mathlib.Tactic.NormNum
import Mathlib.Tactic.IntervalCases

/-!
# C83: cases and witnesses
-/

namespace Verif.Loop

open Verif.Polygon (Pt twoTri seenFrom polygonArea edges)

/-- A mesh from lists. -/
def ofList (T : List (List (Pt ℚ))) (B : List (ℕ × ℕ)) : Mesh ℚ := ⟨T.length, fun k j => (T.getD k []).getD j ⟨0, 0⟩, B⟩

/-- Decidable form of validity with a given table of opposite edges. -/
def check (M : Mesh ℚ) (mate : ℕ × ℕ → ℕ × ℕ) : Bool :=
  (M.boundary.all fun b => decide (b.1 < M.n ∧ b.2 < 3)) && decide M.boundary.Nodup &&
  (List.range M.n).all fun k => (List.range 3).all fun i => decide ((k, i) ∈ M.boundary) ||
    decide ((mate (k, i)).1 < M.n ∧ (mate (k, i)).2 < 3 ∧ mate (k, i) ∉ M.boundary ∧ mate (mate (k, i)) = (k, i) ∧
      M.corner (mate (k, i)).1 (((mate (k, i)).2 + 1) % 3) = M.corner k ((i + 2) % 3) ∧ M.corner (mate (k, i)).1 (((mate (k, i)).2 + 2) % 3) = M.corner k ((i + 1) % 3))

theorem check_valid {M : Mesh ℚ} {mate : ℕ × ℕ → ℕ × ℕ} (h : check M mate = true) : M.Valid := by
  unfold check at h
  simp only [Bool.and_eq_true, List.all_eq_true, decide_eq_true_eq, List.mem_range, Bool.or_eq_true] at h
  obtain ⟨⟨h1, h2⟩, h3⟩ := h
  refine ⟨fun k i hm => h1 (k, i) hm, h2, mate, fun k i hk hi hm => ?_⟩
  rcases h3 k hk i hi with h | ⟨k1, k2, k3, k4, k5, k6⟩
  · exact absurd h hm
  · refine ⟨k1, k2, k3, k4, ?_⟩
    rintro p q ⟨rfl, rfl⟩
    exact ⟨k5.symm, k6.symm⟩

def checkSimple (M : Mesh ℚ) : Bool := decide ((M.boundary.map fun b => M.corner b.1 ((b.2 + 1) % 3)).Nodup)

theorem check_simple {M : Mesh ℚ} (h : checkSimple M = true) : M.Simple := by
  unfold checkSimple at h
  rw [decide_eq_true_eq] at h
  rintro k i k' i' p q q' h1 h2 ⟨rfl, -⟩ ⟨e, -⟩
  exact List.inj_on_of_nodup_map h h1 h2 e

def checkCcw (M : Mesh ℚ) : Bool := (List.range M.n).all fun k => decide (0 < twoTri (M.corner k 0) (M.corner k 1) (M.corner k 2))

theorem check_ccw {M : Mesh ℚ} (h : checkCcw M = true) : M.Ccw := by
  unfold checkCcw at h
  rw [List.all_eq_true] at h
  intro k hk
  exact of_decide_eq_true (h k (List.mem_range.mpr hk))

/-- Angles do not matter where no point is the start of two boundary edges. -/
theorem free {M : Mesh ℚ} (hv : M.Valid) (hs : M.Simple) (ang ang' : Pt ℚ → Pt ℚ → ℚ) (pi pi' : ℚ) (rounds : ℕ) :
    M.boundaryPolygon ang pi rounds = M.boundaryPolygon ang' pi' rounds := by
  have hn : ∀ poly p, next ang pi M.segs poly p = next ang' pi' M.segs poly p := by
    intro poly p
    unfold next
    by_cases h : ∃ q, (p, q) ∈ M.segs
    · obtain ⟨q, hq⟩ := h
      rw [cands_one (simple_nodup hv hs) hq]
    · have : candidates M.segs p = [] := by
        unfold candidates
        rw [List.map_eq_nil_iff, List.filter_eq_nil_iff]
        rintro ⟨a, b⟩ he hd
        rw [decide_eq_true_eq] at hd
        exact h ⟨b, hd ▸ he⟩
      rw [this]
  have hw : ∀ rounds poly reg p0, walk ang pi M.segs rounds poly reg p0 = walk ang' pi' M.segs rounds poly reg p0 := by
    intro rounds
    induction rounds with
    | zero => intros; rfl
    | succ r ih =>
      intro poly reg p0
      unfold walk
      rw [hn]
      simp only [ih]
  unfold Mesh.boundaryPolygon
  simp only [hw]

/-- Unit square of two triangles. -/
def square : Mesh ℚ := ofList [[⟨0, 0⟩, ⟨1, 0⟩, ⟨1, 1⟩], [⟨0, 0⟩, ⟨1, 1⟩, ⟨0, 1⟩]] [(1, 0), (0, 0), (1, 1), (0, 2)]

theorem square_valid : square.Valid := check_valid (mate := fun b => if b = (0, 1) then (1, 2) else (0, 1)) (by decide +kernel)

/-- Non-vacuity of `C83_loop`, `C83_area`, `C83_one_loop`, `C83_path`. -/
example : square.Valid ∧ square.Simple ∧ square.Ccw ∧ square.OneLoop ∧ (∀ ang pi, square.boundaryPolygon ang pi 4 = .polygon [⟨0, 0⟩, ⟨1, 0⟩, ⟨1, 1⟩, ⟨0, 1⟩]) ∧
    Closed square.Bd [⟨0, 0⟩, ⟨1, 0⟩, ⟨1, 1⟩, ⟨0, 1⟩] ∧ square.area = 1 := by
  have hB : ∀ a b, (a, b) ∈ [((⟨0, 0⟩ : Pt ℚ), (⟨1, 0⟩ : Pt ℚ)), (⟨1, 0⟩, ⟨1, 1⟩), (⟨1, 1⟩, ⟨0, 1⟩), (⟨0, 1⟩, ⟨0, 0⟩)] ↔ square.Bd a b := by
    intro a b
    rw [← mem_segs square_valid, show square.segs = [(⟨1, 1⟩, ⟨0, 1⟩), (⟨1, 0⟩, ⟨1, 1⟩), (⟨0, 1⟩, ⟨0, 0⟩), (⟨0, 0⟩, ⟨1, 0⟩)] from rfl]
    simp only [List.mem_cons, List.not_mem_nil, or_false]
    tauto
  have e1 := (hB ⟨0, 0⟩ ⟨1, 0⟩).mp (by simp)
  have e2 := (hB ⟨1, 0⟩ ⟨1, 1⟩).mp (by simp)
  have e3 := (hB ⟨1, 1⟩ ⟨0, 1⟩).mp (by simp)
  have e4 := (hB ⟨0, 1⟩ ⟨0, 0⟩).mp (by simp)
  have hsim : square.Simple := check_simple (by decide +kernel)
  refine ⟨square_valid, hsim, check_ccw (by decide +kernel), ?_, fun ang pi => (free square_valid hsim ang (fun _ _ => 0) pi 0 4).trans (by decide +kernel), ?_, by decide +kernel⟩
  · have r1 := Relation.ReflTransGen.single e1
    have r2 := Relation.ReflTransGen.single e2
    have r3 := Relation.ReflTransGen.single e3
    have r4 := Relation.ReflTransGen.single e4
    have to0 : ∀ p q, square.Bd p q → Relation.ReflTransGen square.Bd p ⟨0, 0⟩ ∧ Relation.ReflTransGen square.Bd ⟨0, 0⟩ p := by
      intro p q h
      rw [← hB] at h
      simp only [List.mem_cons, List.not_mem_nil, or_false, Prod.mk.injEq] at h
      rcases h with ⟨rfl, -⟩ | ⟨rfl, -⟩ | ⟨rfl, -⟩ | ⟨rfl, -⟩
      · exact ⟨.refl, .refl⟩
      · exact ⟨(r2.trans r3).trans r4, r1⟩
      · exact ⟨r3.trans r4, r1.trans r2⟩
      · exact ⟨r4, (r1.trans r2).trans r3⟩
    intro p q p' q' h h'
    exact (to0 p q h).1.trans (to0 p' q' h').2
  · intro j hj
    simp only [List.length_cons, List.length_nil] at hj
    interval_cases j
    · exact e1
    · exact e2
    · exact e3
    · exact e4

/-- Triangle (10,0), (10,10), (0,10) with a hole (6,6), (8,7), (7,8). -/
def holed : Mesh ℚ := ofList
  [[⟨10, 0⟩, ⟨10, 10⟩, ⟨8, 7⟩], [⟨10, 0⟩, ⟨8, 7⟩, ⟨6, 6⟩], [⟨10, 10⟩, ⟨7, 8⟩, ⟨8, 7⟩], [⟨10, 10⟩, ⟨0, 10⟩, ⟨7, 8⟩], [⟨0, 10⟩, ⟨6, 6⟩, ⟨7, 8⟩], [⟨0, 10⟩, ⟨10, 0⟩, ⟨6, 6⟩]]
  [(0, 2), (1, 0), (2, 0), (3, 2), (4, 0), (5, 2)]

/-- **C83, a limit of the code.** On a mesh with a hole the result may be the boundary of the hole, clockwise: the starting point is the boundary point nearest
to the lower left corner of the extent, which here is on the hole. -/
theorem C83_hole : holed.Valid ∧ holed.Simple ∧ holed.Ccw ∧ (∀ ang pi, holed.boundaryPolygon ang pi 6 = .polygon [⟨6, 6⟩, ⟨7, 8⟩, ⟨8, 7⟩]) ∧
    seenFrom ⟨0, 0⟩ [(⟨6, 6⟩ : Pt ℚ), ⟨7, 8⟩, ⟨8, 7⟩] = -3 / 2 ∧ holed.area = 97 / 2 := by
  have hval : holed.Valid := check_valid (mate := fun b => ([((0, 0), (2, 1)), ((0, 1), (1, 2)), ((1, 1), (5, 0)), ((2, 2), (3, 1)), ((3, 0), (4, 1)), ((4, 2), (5, 1)),
    ((2, 1), (0, 0)), ((1, 2), (0, 1)), ((5, 0), (1, 1)), ((3, 1), (2, 2)), ((4, 1), (3, 0)), ((5, 1), (4, 2))].lookup b).getD b) (by decide +kernel)
  have hsim : holed.Simple := check_simple (by decide +kernel)
  exact ⟨hval, hsim, check_ccw (by decide +kernel), fun ang pi => (free hval hsim ang (fun _ _ => 0) pi 0 6).trans (by decide +kernel), by decide +kernel, by decide +kernel⟩

/-- Two triangles that have only the corner (0,0) in common. -/
def pinched : Mesh ℝ := ⟨2, fun k j => ([[⟨0, 0⟩, ⟨2, 0⟩, ⟨2, 1⟩], [⟨0, 0⟩, ⟨1, 2⟩, ⟨0, 2⟩]].getD k []).getD j ⟨0, 0⟩, [(0, 0), (0, 1), (0, 2), (1, 0), (1, 1), (1, 2)]⟩

theorem pinched_segs : pinched.segs = [(⟨2, 0⟩, ⟨2, 1⟩), (⟨2, 1⟩, ⟨0, 0⟩), (⟨0, 0⟩, ⟨2, 0⟩), (⟨1, 2⟩, ⟨0, 2⟩), (⟨0, 2⟩, ⟨0, 0⟩), (⟨0, 0⟩, ⟨1, 2⟩)] := rfl

/-- **C83, a limit of the code.** If the starting point is the start of two boundary edges, part of the mesh may be left out. -/
theorem C83_pinch : pinched.Valid ∧ pinched.Ccw ∧ (∃ P, pinched.boundaryPolygon angle Real.pi 6 = .polygon P ∧ polygonArea P = 1) ∧ pinched.area = 2 := by
  have hpmin : pinched.pmin = ⟨0, 0⟩ := by
    unfold Mesh.pmin Mesh.points pinched
    simp [List.range_succ]
  have hpmax : pinched.pmax = ⟨2, 2⟩ := by
    unfold Mesh.pmax Mesh.points pinched
    simp [List.range_succ]
  have hstart : start pinched.pmin pinched.segs (d2 pinched.pmax pinched.pmin) none = some ⟨0, 0⟩ := by
    rw [hpmin, hpmax, pinched_segs]
    norm_num [start, d2]
    simp
  have ha1 : angle ⟨2, 0⟩ ⟨1, 0⟩ = 0 := by
    have hs : √((2 : ℝ) ^ 2 + 0 ^ 2) = 2 := by
      rw [show (2 : ℝ) ^ 2 + 0 ^ 2 = 2 ^ 2 by norm_num, Real.sqrt_sq (by norm_num)]
    unfold angle unit
    simp only [hs]
    norm_num
  have ha2 : 0 < angle ⟨1, 2⟩ ⟨1, 0⟩ := by
    have h0 : 0 ≤ angle ⟨1, 2⟩ ⟨1, 0⟩ := (C83_angle (by simp) (by simp)).1
    refine lt_of_le_of_ne h0 fun h => ?_
    have h2 := (C83_angle (v1 := ⟨1, 2⟩) (v2 := ⟨1, 0⟩) (by simp) (by simp)).2.2.2
    rw [← h] at h2
    unfold unit at h2
    simp at h2
    have : (0 : ℝ) < √(1 + 2 ^ 2) := Real.sqrt_pos.mpr (by norm_num)
    linarith
  have ha3 : angle ⟨1, 2⟩ ⟨1, 0⟩ ≤ Real.pi := by
    unfold angle unit
    simp
    rw [if_neg (not_lt.mpr (by positivity))]
    exact Real.arccos_le_pi _
  have hpi := Real.pi_pos
  have hchoose : choose angle Real.pi ⟨1, 0⟩ ⟨0, 0⟩ [⟨2, 0⟩, ⟨1, 2⟩] = some ⟨2, 0⟩ := by
    unfold choose
    simp only [List.foldl_cons, List.foldl_nil, sub, sub_zero, ha1]
    have h2 : (0 : ℝ) < 2 * Real.pi := by linarith
    simp only [gt_iff_lt, not_lt.mpr hpi.le, not_lt.mpr ha3, if_false, h2, if_true, not_lt.mpr ha2.le]
  refine ⟨⟨?_, by decide, fun b => b, ?_⟩, ?_, ⟨[⟨0, 0⟩, ⟨2, 0⟩, ⟨2, 1⟩], ?_, ?_⟩, ?_⟩
  · intro k i h
    simp only [pinched, List.mem_cons, List.not_mem_nil, or_false, Prod.mk.injEq] at h ⊢
    omega
  · intro k i hk hi h
    exfalso
    apply h
    have : k < 2 := hk
    simp only [pinched, List.mem_cons, List.not_mem_nil, or_false, Prod.mk.injEq]
    omega
  · intro k hk
    have : k < 2 := hk
    interval_cases k <;> norm_num [pinched, twoTri]
  · unfold Mesh.boundaryPolygon
    rw [hstart, pinched_segs]
    simp [walk, next, candidates, hchoose, close_self]
  · rw [Polygon.C19_seen_from_anywhere _ ⟨0, 0⟩, Polygon.seenFrom_sumE]
    norm_num [Polygon.sumE, Polygon.edges, twoTri, List.rotate]
  · unfold Mesh.area
    norm_num [pinched, Finset.sum_range_succ, twoTri]

end Verif.Loop
