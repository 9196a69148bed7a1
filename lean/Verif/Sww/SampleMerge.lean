import Verif.Sww.PropsMerge
import Mathlib.Data.Rat.Floor

/-! Two processors with one triangle each and a copy of the other's. -/

set_option linter.unusedSectionVars false

namespace Verif.Sww

/-- A square cut in two triangles. -/
def square : Whole ℚ := ⟨[![0, 1, 2], ![1, 3, 2]], [0, 1, 0, 1], [0, 0, 1, 1]⟩

/-- The file of processor 0: the whole mesh in the same numbering, own triangle 0. -/
def sm0 : Part ℚ where
  starttime := 100
  times := [0, 1, 2]
  volumes := [![0, 1, 2], ![1, 3, 2]]
  x := [0, 1, 0, 1]
  y := [0, 0, 1, 1]
  triL2g := [0, 1]
  nodeL2g := [0, 1, 2, 3]
  full := [1, 0]
  nTri := 2
  nNode := 4
  vars n := if n = "elevation" then some (.static [10, 11, 12, -1])
    else if n = "stage" then some (.dynamic [[20, 21, 22, -1], [30, 31, 32, -1], [40, 41, 42, -1]]) else none
  varsC n := if n = "stage" then some (.dynamic [[5, -1], [6, -1], [7, -1]]) else none

/-- The file of processor 1: own triangle first, nodes in another order. -/
def sm1 : Part ℚ where
  starttime := 100
  times := [0, 1, 2]
  volumes := [![1, 0, 2], ![3, 1, 2]]
  x := [1, 1, 0, 0]
  y := [1, 0, 1, 0]
  triL2g := [1, 0]
  nodeL2g := [3, 1, 2, 0]
  full := [1, 0]
  nTri := 2
  nNode := 4
  vars n := if n = "elevation" then some (.static [13, 111, 12, -2])
    else if n = "stage" then some (.dynamic [[23, 21, 22, -2], [33, 31, 32, -2], [43, 41, 42, -2]]) else none
  varsC n := if n = "stage" then some (.dynamic [[8, -2], [9, -2], [10, -2]]) else none

/-- The merged file: own values everywhere; at node 1, where the two disagree on the elevation (11 and 111), the last one counts. -/
example : (mergeParallel [sm0, sm1]).map (fun m => (m.x, m.y, m.starttime)) = some ([0, 1, 0, 1], [0, 0, 1, 1], 100) ∧
    (mergeParallel [sm0, sm1]).map (fun m => m.vars) = some
      [("elevation", .static [10, 111, 12, 13]), ("stage", .dynamic [[20, 21, 22, 23], [30, 31, 32, 33], [40, 41, 42, 43]])] ∧
    (mergeParallel [sm0, sm1]).map (fun m => m.varsC) = some [("stage", .dynamic [[5, 8], [6, 9], [7, 10]])] := by
  decide +kernel

theorem own_cases {p : Part ℚ} {i t : ℕ} (h : Own p i t) (hp : p = sm0 ∨ p = sm1) : i = 0 ∧ ((p = sm0 ∧ t = 0) ∨ (p = sm1 ∧ t = 1)) := by
  obtain ⟨h1, h2⟩ := h
  rcases hp with rfl | rfl
  · match i, h1, h2 with
    | 0, _, h2 => simp [sm0] at h2; exact ⟨rfl, .inl ⟨rfl, h2.symm⟩⟩
    | 1, h1, _ => simp [sm0] at h1
    | i + 2, h1, _ => simp [sm0] at h1
  · match i, h1, h2 with
    | 0, _, h2 => simp [sm1] at h2; exact ⟨rfl, .inr ⟨rfl, h2.symm⟩⟩
    | 1, h1, _ => simp [sm1] at h1
    | i + 2, h1, _ => simp [sm1] at h1

theorem two_parts {p : Part ℚ} (h : p ∈ [sm0, sm1]) : p = sm0 ∨ p = sm1 := by simpa using h

theorem square_pieces : Pieces square [sm0, sm1] where
  same := rfl
  nTri p hp := by rcases two_parts hp with rfl | rfl <;> rfl
  nNode p hp := by rcases two_parts hp with rfl | rfl <;> rfl
  full p hp := by rcases two_parts hp with rfl | rfl <;> rfl
  l2g p hp := by rcases two_parts hp with rfl | rfl <;> rfl
  flags p hp := by rcases two_parts hp with rfl | rfl <;> decide
  range p hp := by rcases two_parts hp with rfl | rfl <;> decide
  owned t ht := by
    match t, ht with
    | 0, _ => exact ⟨sm0, by simp, 0, rfl, rfl⟩
    | 1, _ => exact ⟨sm1, by simp, 0, rfl, rfl⟩
    | t + 2, ht => simp [square] at ht
  once p hp q hq i j t h1 h2 := by
    obtain ⟨e1, e2⟩ := own_cases h1 (two_parts hp)
    obtain ⟨e3, e4⟩ := own_cases h2 (two_parts hq)
    refine ⟨?_, by rw [e1, e3]⟩
    rcases e2 with ⟨a, b⟩ | ⟨a, b⟩ <;> rcases e4 with ⟨c, d⟩ | ⟨c, d⟩
    · rw [a, c]
    · rw [b] at d; simp at d
    · rw [b] at d; simp at d
    · rw [a, c]

theorem square_smooth : SmoothFiles square [sm0, sm1] where
  nodup p hp := by rcases two_parts hp with rfl | rfl <;> decide
  range p hp := by rcases two_parts hp with rfl | rfl <;> decide
  copy p hp i t v h1 h2 := by
    rcases two_parts hp with rfl | rfl
    · match i, h1, h2 with
      | 0, h1, h2 => simp [sm0] at h1 h2; subst h1 h2; exact ⟨_, rfl, by decide⟩
      | 1, h1, h2 => simp [sm0] at h1 h2; subst h1 h2; exact ⟨_, rfl, by decide⟩
      | i + 2, h1, _ => simp [sm0] at h1
    · match i, h1, h2 with
      | 0, h1, h2 => simp [sm1] at h1 h2; subst h1 h2; exact ⟨_, rfl, by decide⟩
      | 1, h1, h2 => simp [sm1] at h1 h2; subst h1 h2; exact ⟨_, rfl, by decide⟩
      | i + 2, h1, _ => simp [sm1] at h1
  xs p hp := by
    rcases two_parts hp with rfl | rfl
    · refine ⟨rfl, fun i n h => ?_⟩
      match i, h with
      | 0, h => simp [sm0] at h; subst h; rfl
      | 1, h => simp [sm0] at h; subst h; rfl
      | 2, h => simp [sm0] at h; subst h; rfl
      | 3, h => simp [sm0] at h; subst h; rfl
      | i + 4, h => simp [sm0] at h
    · refine ⟨rfl, fun i n h => ?_⟩
      match i, h with
      | 0, h => simp [sm1] at h; subst h; rfl
      | 1, h => simp [sm1] at h; subst h; rfl
      | 2, h => simp [sm1] at h; subst h; rfl
      | 3, h => simp [sm1] at h; subst h; rfl
      | i + 4, h => simp [sm1] at h
  ys p hp := by
    rcases two_parts hp with rfl | rfl
    · refine ⟨rfl, fun i n h => ?_⟩
      match i, h with
      | 0, h => simp [sm0] at h; subst h; rfl
      | 1, h => simp [sm0] at h; subst h; rfl
      | 2, h => simp [sm0] at h; subst h; rfl
      | 3, h => simp [sm0] at h; subst h; rfl
      | i + 4, h => simp [sm0] at h
    · refine ⟨rfl, fun i n h => ?_⟩
      match i, h with
      | 0, h => simp [sm1] at h; subst h; rfl
      | 1, h => simp [sm1] at h; subst h; rfl
      | 2, h => simp [sm1] at h; subst h; rfl
      | 3, h => simp [sm1] at h; subst h; rfl
      | i + 4, h => simp [sm1] at h
  used n hn := by
    match n, hn with
    | 0, _ => exact ⟨0, _, 0, rfl, rfl⟩
    | 1, _ => exact ⟨0, _, 1, rfl, rfl⟩
    | 2, _ => exact ⟨0, _, 2, rfl, rfl⟩
    | 3, _ => exact ⟨1, _, 1, rfl, rfl⟩
    | n + 4, hn => simp [square] at hn

/-- The hypotheses of `C87_smooth` hold for the two files. -/
example : Pieces square [sm0, sm1] ∧ SmoothFiles square [sm0, sm1] ∧ 3 * sm0.volumes.length ≠ sm0.nodeL2g.length ∧
    Uniform Part.vars (fun p => p.nodeL2g.length) sm0.times.length [sm0, sm1] ∧
    Uniform Part.varsC (fun p => p.volumes.length) sm0.times.length [sm0, sm1] ∧
    sm0.times.length ≠ sm0.nodeL2g.length ∧ sm0.times.length ≠ sm0.volumes.length := by
  refine ⟨square_pieces, square_smooth, by decide, ?_, ?_, by decide, by decide⟩
  · intro n
    by_cases h1 : n = "elevation"
    · right; left
      refine ⟨fun p => if p.full = [1, 0] ∧ p.triL2g = [0, 1] then [10, 11, 12, -1] else [13, 111, 12, -2], ?_⟩
      intro p hp
      rcases two_parts hp with rfl | rfl <;> simp [sm0, sm1, h1]
    · by_cases h2 : n = "stage"
      · right; right
        refine ⟨fun p => if p.triL2g = [0, 1] then [[20, 21, 22, -1], [30, 31, 32, -1], [40, 41, 42, -1]]
          else [[23, 21, 22, -2], [33, 31, 32, -2], [43, 41, 42, -2]], ?_⟩
        intro p hp
        rcases two_parts hp with rfl | rfl <;> simp [sm0, sm1, h2]
      · left
        intro p hp
        rcases two_parts hp with rfl | rfl <;> simp [sm0, sm1, h1, h2]
  · intro n
    by_cases h2 : n = "stage"
    · right; right
      refine ⟨fun p => if p.triL2g = [0, 1] then [[5, -1], [6, -1], [7, -1]] else [[8, -2], [9, -2], [10, -2]], ?_⟩
      intro p hp
      rcases two_parts hp with rfl | rfl <;> simp [sm0, sm1, h2]
    · left
      intro p hp
      rcases two_parts hp with rfl | rfl <;> simp [sm0, sm1, h2]

/-- The same run in the non-smooth format. -/
def pl0 : Part ℚ :=
  { sm0 with
    volumes := [![0, 1, 2], ![3, 4, 5]]
    x := [0, 1, 0, 1, 1, 0]
    y := [0, 0, 1, 0, 1, 1]
    vars := fun n => if n = "stage" then some (.dynamic [[20, 21, 22, -1, -1, -1], [30, 31, 32, -1, -1, -1], [40, 41, 42, -1, -1, -1]]) else none }

/-- The other half. -/
def pl1 : Part ℚ :=
  { sm1 with
    volumes := [![0, 1, 2], ![3, 4, 5]]
    x := [1, 1, 0, 0, 1, 0]
    y := [0, 1, 1, 0, 0, 1]
    vars := fun n => if n = "stage" then some (.dynamic [[23, 24, 25, -2, -2, -2], [33, 34, 35, -2, -2, -2], [43, 44, 45, -2, -2, -2]]) else none }

example : (mergeParallel [pl0, pl1]).map (fun m => (m.x, m.y)) = some ([0, 1, 0, 1, 1, 0], [0, 0, 1, 0, 1, 1]) ∧
    (mergeParallel [pl0, pl1]).map (fun m => m.vars) = some
      [("stage", .dynamic [[20, 21, 22, 23, 24, 25], [30, 31, 32, 33, 34, 35], [40, 41, 42, 43, 44, 45]])] ∧
    (mergeParallel [pl0, pl1]).map (fun m => m.varsC) = some [("stage", .dynamic [[5, 8], [6, 9], [7, 10]])] := by
  decide +kernel

theorem two_plain {p : Part ℚ} (h : p ∈ [pl0, pl1]) : p = pl0 ∨ p = pl1 := by simpa using h

/-- The hypotheses of `C87_plain` hold. -/
example : Pieces square [pl0, pl1] ∧ PlainFiles square [pl0, pl1] ∧
    Uniform Part.vars (fun p => 3 * p.volumes.length) pl0.times.length [pl0, pl1] ∧
    Uniform Part.varsC (fun p => p.volumes.length) pl0.times.length [pl0, pl1] := by
  have own : ∀ {p : Part ℚ} {i t : ℕ}, Own p i t → p = pl0 ∨ p = pl1 → i = 0 ∧ ((p = pl0 ∧ t = 0) ∨ (p = pl1 ∧ t = 1)) := by
    intro p i t h hp
    rcases hp with rfl | rfl
    · rcases own_cases (p := sm0) h (.inl rfl) with ⟨e, ⟨_, h⟩ | ⟨h', h⟩⟩
      · exact ⟨e, .inl ⟨rfl, h⟩⟩
      · exact absurd (congrArg Part.triL2g h') (by decide)
    · rcases own_cases (p := sm1) h (.inr rfl) with ⟨e, ⟨h', h⟩ | ⟨_, h⟩⟩
      · exact absurd (congrArg Part.triL2g h') (by decide)
      · exact ⟨e, .inr ⟨rfl, h⟩⟩
  refine ⟨?_, ?_, ?_, ?_⟩
  · exact
      { same := rfl
        nTri := fun p hp => by rcases two_plain hp with rfl | rfl <;> rfl
        nNode := fun p hp => by rcases two_plain hp with rfl | rfl <;> rfl
        full := fun p hp => by rcases two_plain hp with rfl | rfl <;> rfl
        l2g := fun p hp => by rcases two_plain hp with rfl | rfl <;> rfl
        flags := fun p hp => by rcases two_plain hp with rfl | rfl <;> decide
        range := fun p hp => by rcases two_plain hp with rfl | rfl <;> decide
        owned := fun t ht => by
          match t, ht with
          | 0, _ => exact ⟨pl0, by simp, 0, rfl, rfl⟩
          | 1, _ => exact ⟨pl1, by simp, 0, rfl, rfl⟩
          | t + 2, ht => simp [square] at ht
        once := fun p hp q hq i j t h1 h2 => by
          obtain ⟨e1, e2⟩ := own h1 (two_plain hp)
          obtain ⟨e3, e4⟩ := own h2 (two_plain hq)
          refine ⟨?_, by rw [e1, e3]⟩
          rcases e2 with ⟨a, b⟩ | ⟨a, b⟩ <;> rcases e4 with ⟨c, d⟩ | ⟨c, d⟩
          · rw [a, c]
          · rw [b] at d; simp at d
          · rw [b] at d; simp at d
          · rw [a, c] }
  · have key : ∀ (c : Part ℚ → List ℚ) (Z : List ℚ), (∀ p ∈ [pl0, pl1], (c p).length = 6) →
        (∀ p ∈ [pl0, pl1], ∀ i : ℕ, i < 2 → ∀ k : Fin 3, (c p)[3 * i + k]? = Z[(square.tris.getD (p.triL2g.getD i 0) fun _ => 0) k]?) →
        ∀ p ∈ [pl0, pl1], (c p).length = 3 * p.volumes.length ∧ ∀ (i t : ℕ) (T : Fin 3 → ℕ) (k : Fin 3), p.triL2g[i]? = some t →
          square.tris[t]? = some T → (c p)[3 * i + k]? = Z[T k]? := by
      intro c Z h6 h p hp
      have hl : p.triL2g.length = 2 := by rcases two_plain hp with rfl | rfl <;> rfl
      have hv : p.volumes.length = 2 := by rcases two_plain hp with rfl | rfl <;> rfl
      refine ⟨by rw [h6 p hp, hv], fun i t T k h1 h2 => ?_⟩
      obtain ⟨hi, _⟩ := List.getElem?_eq_some_iff.mp h1
      have := h p hp i (by omega) k
      rw [this, List.getD_eq_getElem?_getD (l := p.triL2g), h1, List.getD_eq_getElem?_getD]
      simp only [Option.getD_some, h2]
    refine ⟨by decide +kernel, key Part.x square.X ?_ ?_, key Part.y square.Y ?_ ?_⟩
    · intro p hp; rcases two_plain hp with rfl | rfl <;> rfl
    · intro p hp; rcases two_plain hp with rfl | rfl <;> decide +kernel
    · intro p hp; rcases two_plain hp with rfl | rfl <;> rfl
    · intro p hp; rcases two_plain hp with rfl | rfl <;> decide +kernel
  · intro n
    by_cases h2 : n = "stage"
    · right; right
      refine ⟨fun p => if p.triL2g = [0, 1] then [[20, 21, 22, -1, -1, -1], [30, 31, 32, -1, -1, -1], [40, 41, 42, -1, -1, -1]]
        else [[23, 24, 25, -2, -2, -2], [33, 34, 35, -2, -2, -2], [43, 44, 45, -2, -2, -2]], ?_⟩
      intro p hp
      rcases two_plain hp with rfl | rfl <;> simp [pl0, pl1, sm0, sm1, h2]
    · left
      intro p hp
      rcases two_plain hp with rfl | rfl <;> simp [pl0, pl1, h2]
  · intro n
    by_cases h2 : n = "stage"
    · right; right
      refine ⟨fun p => if p.triL2g = [0, 1] then [[5, -1], [6, -1], [7, -1]] else [[8, -2], [9, -2], [10, -2]], ?_⟩
      intro p hp
      rcases two_plain hp with rfl | rfl <;> simp [pl0, pl1, sm0, sm1, h2]
    · left
      intro p hp
      rcases two_plain hp with rfl | rfl <;> simp [pl0, pl1, sm0, sm1, h2]

/-- **C87, the code disagrees.** With as many stored times as the first file has points, a static quantity is taken for a
dynamic one and merging raises. -/
theorem C87_static_mistaken :
    (mergeParallel [{ sm0 with times := [0, 1, 2, 3], vars := fun n => if n = "elevation" then some (.static [10, 11, 12, -1]) else none,
                               varsC := fun _ => none },
      { sm1 with times := [0, 1, 2, 3], vars := fun n => if n = "elevation" then some (.static [13, 11, 12, -2]) else none,
                 varsC := fun _ => none }]).isNone = true ∧
    (mergeParallel [{ sm0 with vars := fun n => if n = "elevation" then some (.static [10, 11, 12, -1]) else none, varsC := fun _ => none },
      { sm1 with vars := fun n => if n = "elevation" then some (.static [13, 11, 12, -2]) else none, varsC := fun _ => none }]).map
        (fun m => m.vars) = some [("elevation", .static [10, 11, 12, 13])] := by
  decide +kernel

/-- **C87, the code disagrees.** A run started at 100.5 is said to have started at 100. -/
theorem C87_start_truncated :
    (mergeParallel [{ sm0 with starttime := 201 / 2 }, { sm1 with starttime := 201 / 2 }]).map (fun m => m.starttime) = some 100 := by
  decide +kernel

end Verif.Sww
