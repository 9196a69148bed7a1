import Verif.Wall.PropsMore
import Mathlib.Analysis.Real.Sqrt
import Mathlib.Tactic.NormNum

/-!
# C82: cases and witnesses
-/

namespace Verif.Wall

theorem sqrt_ok : IsSqrt Real.sqrt := fun x hx => ⟨Real.sqrt_nonneg x, Real.mul_self_sqrt hx⟩

/-- One triangle (0,0), (2,0), (0,2) with origin (10, 20); its long side is on the boundary. -/
def one (K : Type*) [Field K] : Dom K :=
  ⟨1, fun r => if r % 3 = 0 then (0, 0) else if r % 3 = 1 then (2, 0) else (0, 2), 10, 20, [(0, 0)], true⟩

/-- A wall along its lower side, rising from 5 to 7. -/
def wall (K : Type*) [Field K] : List (String × List (Pt3 K)) := [("w", [(10, 20, 5), (12, 20, 7)])]

theorem one_vert {K : Type*} [Field K] (r : ℕ) : (one K).vert r = if r % 3 = 0 then (0, 0) else if r % 3 = 1 then (2, 0) else (0, 2) := rfl

theorem one_ends {K : Type*} [Field K] (e : ℕ) : ((one K).vert (ends e).1, (one K).vert (ends e).2) =
    if e % 3 = 0 then ((2, 0), (0, 2)) else if e % 3 = 1 then ((0, 0), (0, 2)) else ((0, 0), (2, 0)) := by
  unfold ends
  rcases (by omega : e % 3 = 0 ∨ e % 3 = 1 ∨ e % 3 = 2) with h | h | h
  · simp [one_vert, h, Nat.add_mod]
  · have : (e - 1) % 3 = 0 := by omega
    simp [one_vert, h, Nat.add_mod, this]
  · have h1 : (e - 2) % 3 = 0 := by omega
    have h2 : (e - 1) % 3 = 1 := by omega
    simp [one_vert, h, h1, h2]

theorem one_mid {K : Type*} [Field K] [CharZero K] (e : ℕ) : (one K).mid e = if e % 3 = 0 then (1, 1) else if e % 3 = 1 then (0, 1) else (1, 0) := by
  unfold Dom.mid
  rcases (by omega : e % 3 = 0 ∨ e % 3 = 1 ∨ e % 3 = 2) with h | h | h <;> simp [one_vert, h, Nat.add_mod]

theorem one_proper : (one ℝ).Proper := by
  constructor
  · intro e
    have := one_ends (K := ℝ) e
    rcases (by omega : e % 3 = 0 ∨ e % 3 = 1 ∨ e % 3 = 2) with h | h | h <;> simp only [h] at this <;> norm_num at this <;>
      rw [this.1, this.2] <;> norm_num
  · intro e f hm p hp
    rw [one_mid, one_mid] at hm
    have hef : e % 3 = f % 3 := by
      rcases (by omega : e % 3 = 0 ∨ e % 3 = 1 ∨ e % 3 = 2) with h | h | h <;> rcases (by omega : f % 3 = 0 ∨ f % 3 = 1 ∨ f % 3 = 2) with h' | h' | h' <;>
        simp_all
    have h1 := one_ends (K := ℝ) e
    have h2 := one_ends (K := ℝ) f
    rw [hef, ← h2, Prod.mk.injEq] at h1
    rwa [h1.1, h1.2] at hp

theorem one_strip (e : ℕ) : Strip (1 / 10) ((10, 20, 5) : Pt3 ℝ) (12, 20, 7) ((one ℝ).place e) ↔ e % 3 = 2 := by
  have hL : ∀ L : ℝ, 0 < L → L * L = len2 ((10, 20, 5) : Pt3 ℝ) (12, 20, 7) → L = 2 := by
    intro L h1 h2
    unfold len2 at h2
    nlinarith
  unfold Dom.place
  rw [one_mid]
  constructor
  · rintro ⟨L, c, d, l0, -, l2, -, e2, hd, -⟩
    obtain rfl := hL L l0 l2
    by_contra h
    rcases (by omega : e % 3 = 0 ∨ e % 3 = 1) with h' | h' <;>
    · simp only [h', one] at e2
      norm_num at e2
      rw [e2] at hd
      norm_num at hd
  · intro h
    refine ⟨2, 1, 0, by norm_num, by norm_num, by norm_num [len2], ?_, ?_, by norm_num, by norm_num, by norm_num⟩ <;> simp [h, one] <;> norm_num

theorem wall_segment {i j : ℕ} {a b : Pt3 ℝ} : Segment (wall ℝ) i j a b ↔ i = 0 ∧ j = 0 ∧ a = (10, 20, 5) ∧ b = (12, 20, 7) := by
  constructor
  · rintro ⟨w, h1, h2, h3⟩
    rcases i with - | i
    · simp only [wall, List.getElem?_cons_zero, Option.some.injEq] at h1
      subst h1
      rcases j with - | j
      · simp only [List.getElem?_cons_zero, Option.some.injEq, Nat.zero_add, List.getElem?_cons_succ] at h2 h3
        exact ⟨rfl, rfl, h2.symm, h3.symm⟩
      · simp at h3
    · simp [wall] at h1
  · rintro ⟨rfl, rfl, rfl, rfl⟩
    exact ⟨_, rfl, rfl, rfl⟩

theorem wall_walled (e : ℕ) : Walled (one ℝ) (1 / 10) (wall ℝ) e ↔ e % 3 = 2 := by
  constructor
  · rintro ⟨i, j, a, b, h1, h2⟩
    obtain ⟨-, -, rfl, rfl⟩ := wall_segment.mp h1
    exact (one_strip e).mp h2
  · intro h
    exact ⟨0, 0, _, _, wall_segment.mpr ⟨rfl, rfl, rfl, rfl⟩, (one_strip e).mpr h⟩

theorem wall_belongs (e : ℕ) : Belongs (one ℝ) (1 / 10) (wall ℝ) 0 e ↔ e = 2 := by
  constructor
  · rintro ⟨h, j, a, b, h1, h2, -⟩
    obtain ⟨-, -, rfl, rfl⟩ := wall_segment.mp h1
    have := (one_strip e).mp h2
    have : e < 3 := h
    omega
  · rintro rfl
    refine ⟨by norm_num [one], 0, _, _, wall_segment.mpr ⟨rfl, rfl, rfl, rfl⟩, (one_strip 2).mpr rfl, ?_⟩
    intro i' j' a' b' hl hs
    obtain ⟨rfl, rfl, -⟩ := wall_segment.mp hs
    rcases hl with h | ⟨-, h⟩ <;> omega

/-- Its one edge is a chain: no gap. -/
theorem wall_chain : ¬ Gap (one ℝ) (Belongs (one ℝ) (1 / 10) (wall ℝ) 0) := by
  have he := one_ends (K := ℝ) 2
  norm_num at he
  refine C82_chain one_proper (P := [(0, 0), (2, 0)]) (by norm_num) ?_ ?_
  · intro e h
    rw [wall_belongs] at h
    subst h
    refine ⟨0, by norm_num, fun p => ?_⟩
    unfold Dom.End
    rw [he.1, he.2]
    simp [eq_comm]
  · intro k hk
    have hk0 : k = 0 := by simp at hk; omega
    subst hk0
    exact ⟨2, (wall_belongs 2).mpr rfl, Or.inl he.1, Or.inr he.2⟩

/-- Non-vacuity of `C82_accepts`: the wall is accepted, with messages. -/
theorem wall_accepted : (create Real.sqrt (one ℝ) (10 ^ 36) (1 / 10) true (wall ℝ) [("w", [("Qfactor", 1 / 2)])] [("h2", 2)] (St.fresh (one ℝ))).2 = none := by
  refine (C82_accepts sqrt_ok (by norm_num) one_proper (Or.inr rfl)).mpr ⟨rfl, ?_, ?_, ?_, ?_⟩
  · intro k x h
    simp only [List.mem_singleton, Prod.mk.injEq] at h
    rw [h.1]
    simp [params]
  · intro n d h
    simp only [List.mem_singleton, Prod.mk.injEq] at h
    obtain ⟨rfl, rfl⟩ := h
    refine ⟨⟨_, List.mem_singleton.mpr rfl⟩, ?_⟩
    intro k x h
    simp only [List.mem_singleton, Prod.mk.injEq] at h
    rw [h.1]
    simp [params]
  · intro n c h s1 s2 h1 h2 v1 v2 v3 v4
    simp only [wall, List.mem_singleton, Prod.mk.injEq] at h
    obtain ⟨rfl, -⟩ := h
    simp [Value, List.lookup, Standard] at v1 v2 v3 v4
    subst v1 v2 v3 v4
    norm_num
  · intro _ i hi
    have : i = 0 := by simp [wall] at hi; exact hi
    subst this
    exact wall_chain

/-- Non-vacuity of `C82_edges`, `C82_counter`, `C82_crest`, `C82_linear`, `C82_parameters`: the edge becomes a wall of elevation 6 with Qfactor 1/2. -/
example : ∃ s', create Real.sqrt (one ℝ) (10 ^ 36) (1 / 10) true (wall ℝ) [("w", [("Qfactor", 1 / 2)])] [("h2", 2)] (St.fresh (one ℝ)) = (s', none) ∧
    (∀ e, s'.flux e = 1 ↔ e % 3 = 2) ∧ ∃ c : ℕ, s'.counter[2]? = some (c + 1) ∧ s'.elevation[c]? = some 6 ∧ s'.rowIndex[c]? = some 0 ∧
      ∃ r, s'.table[0]? = some r ∧ r[0]? = some (1 / 2) := by
  have h : create Real.sqrt (one ℝ) (10 ^ 36) (1 / 10) true (wall ℝ) [("w", [("Qfactor", 1 / 2)])] [("h2", 2)] (St.fresh (one ℝ)) = (_, none) :=
    Prod.ext rfl wall_accepted
  refine ⟨_, h, fun e => (C82_edges sqrt_ok (by norm_num) h e).trans (wall_walled e), ?_⟩
  obtain ⟨c, i, j, a, b, z, h1, h2, h3, h4, h5, h6, h7⟩ := C82_crest sqrt_ok (by norm_num) h (e := 2) (by norm_num [one]) ((wall_walled 2).mpr rfl)
  obtain ⟨rfl, rfl, rfl, rfl⟩ := wall_segment.mp h2
  have hz := C82_linear (by norm_num [len2]) h6 (t := 1 / 2) (by norm_num) (by norm_num) (by simp only [Dom.place, one_mid]; norm_num [one])
  norm_num at hz
  subst hz
  obtain ⟨q, s1, s2, h1', h2', t1, t2, -⟩ := C82_parameters (Or.inr rfl) h (i := 0) (w := ("w", [(10, 20, 5), (12, 20, 7)])) rfl
  simp [Value, List.lookup] at t2
  subst t2
  exact ⟨c, h1, h5, h7, _, t1, by norm_num⟩

/-- Non-vacuity of `C82_again`: the wall is deleted by a second call, but its edge stays a wall, without a row of parameters. -/
example : ∃ s s', create Real.sqrt (one ℝ) (10 ^ 36) (1 / 10) false (wall ℝ) [] [] (St.fresh (one ℝ)) = (s, none) ∧
    create Real.sqrt (one ℝ) (10 ^ 36) (1 / 10) false [] [] [] s = (s', none) ∧
    s'.flux 2 = 1 ∧ s'.table = [] ∧ ∃ c : ℕ, s'.counter[2]? = some (c + 1) ∧ s'.elevation[c]? = some (-10 ^ 36) ∧ s'.rowIndex[c]? = some (-1) := by
  have h1 : (create Real.sqrt (one ℝ) (10 ^ 36) (1 / 10) false (wall ℝ) [] [] (St.fresh (one ℝ))).2 = none := by
    refine (C82_accepts sqrt_ok (by norm_num) one_proper (Or.inr rfl)).mpr ⟨rfl, by simp, by simp, ?_, by simp⟩
    intro n c h s1 s2 h1 h2 v1 v2 v3 v4
    simp [Value, List.lookup, Standard] at v1 v2 v3 v4
    subst v1 v2 v3 v4
    norm_num
  have h : create Real.sqrt (one ℝ) (10 ^ 36) (1 / 10) false (wall ℝ) [] [] (St.fresh (one ℝ)) = (_, none) := Prod.ext rfl h1
  have hn : (create Real.sqrt (one ℝ) (10 ^ 36) (1 / 10) false (wall ℝ) [] [] (St.fresh (one ℝ))).1.names ≠ [] := by
    rw [(success h).1.2.2.2.2.2.2]
    simp [wall]
  have h2 : (create Real.sqrt (one ℝ) (10 ^ 36) (1 / 10) false [] [] [] (create Real.sqrt (one ℝ) (10 ^ 36) (1 / 10) false (wall ℝ) [] [] (St.fresh (one ℝ))).1).2 = none :=
    (C82_accepts sqrt_ok (by norm_num) one_proper (Or.inl hn)).mpr ⟨rfl, by simp, by simp, by simp, by simp⟩
  have h' : create Real.sqrt (one ℝ) (10 ^ 36) (1 / 10) false [] [] [] (create Real.sqrt (one ℝ) (10 ^ 36) (1 / 10) false (wall ℝ) [] [] (St.fresh (one ℝ))).1 = (_, none) :=
    Prod.ext rfl h2
  have hno : ¬ Walled (one ℝ) (1 / 10) [] 2 := by
    rintro ⟨i, j, a, b, ⟨w, h, -⟩, -⟩
    simp at h
  obtain ⟨k1, k2⟩ := C82_again sqrt_ok (by norm_num) h' (e := 2) (by norm_num [one]) ((C82_edges sqrt_ok (by norm_num) h 2).mpr ((wall_walled 2).mpr rfl)) hno
  exact ⟨_, _, h, h', k1, (success h').2.2.2.2.2.1, k2⟩

/-- Non-vacuity of `C82_near` and of the limit that only midpoints count: a wall across an edge, through its midpoint, makes it a wall edge. -/
theorem C82_across : Walled (one ℝ) (1 / 10) [("w", [(11, 19, 5), (11, 21, 7)])] 2 ∧
    (one ℝ).vert (ends 2).1 = (0, 0) ∧ (one ℝ).vert (ends 2).2 = (2, 0) := by
  have he := one_ends (K := ℝ) 2
  norm_num at he
  refine ⟨⟨0, 0, (11, 19, 5), (11, 21, 7), ⟨_, rfl, rfl, rfl⟩, ?_⟩, he⟩
  refine (C82_near sqrt_ok (by norm_num) _ _ _).1 (by norm_num [len2]) ⟨1 / 2, by norm_num, by norm_num, ?_⟩
  simp only [Dom.place, one_mid, dist2]
  norm_num [one]

/-- Rectangle `[0,3] × [-2,1]`; on the line `y = 0` the mesh has the edges from 0 to 1 and from 2 to 3, but none from 1 to 2. -/
def broken : Dom ℚ :=
  ⟨10, fun r => [(0, 0), (1, 0), (0, 1), (1, 0), (3/2, 1), (0, 1), (2, 0), (3, 0), (3, 1), (2, 0), (3, 1), (3/2, 1),
      (1, 0), (3/2, -2), (3/2, 1), (3/2, -2), (2, 0), (3/2, 1),
      (0, 0), (0, -2), (1, 0), (0, -2), (3/2, -2), (1, 0), (3/2, -2), (3, -2), (2, 0), (2, 0), (3, -2), (3, 0)].getD r (0, 0),
    0, 0, [(0, 1), (1, 0), (2, 0), (3, 0), (6, 2), (7, 2), (8, 2), (9, 0)], true⟩

/-- **C82, a limit of the code.** A wall from boundary to boundary with a gap in the middle passes the check: only the ends of the gap are loose. -/
theorem C82_gap_missed : (List.range 30).filter (fun e => decide ((broken.mid e).2 = 0)) = [2, 8, 19, 28] ∧
    connected broken [2, 8, 19, 28] [0, 0, 0, 0] 1 = true ∧
    (∀ e ∈ [2, 8, 19, 28], ∀ t : ℚ, 0 ≤ t → t ≤ 1 →
      (broken.vert (ends e).1).1 + t * ((broken.vert (ends e).2).1 - (broken.vert (ends e).1).1) ≠ 3 / 2) := by
  refine ⟨by decide +kernel, by decide +kernel, ?_⟩
  intro e he t t0 t1
  simp only [List.mem_cons, List.not_mem_nil, or_false] at he
  rcases he with rfl | rfl | rfl | rfl <;> simp only [broken, ends] <;> norm_num <;> intro h <;> linarith

/-- With two gaps it does not. -/
example : ∃ D : Dom ℚ, connected D [2, 5] [0, 0] 1 = false :=
  ⟨⟨2, fun r => [(0, 0), (1, 0), (0, 1), (2, 0), (3, 0), (3, 1)].getD r (0, 0), 0, 0, [(0, 1)], true⟩, by decide +kernel⟩

end Verif.Wall
