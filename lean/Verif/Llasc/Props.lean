import Verif.Llasc.Spec
import Mathlib.Tactic.Ring

/-!
# What is written
-/

set_option linter.unusedSectionVars false

namespace Verif.Llasc

variable {K : Type} [Field K] [LinearOrder K]

theorem flatten_get {α : Type} (n : ℕ) (ls : List (List α)) (h : ∀ l ∈ ls, l.length = n) (i j : ℕ) (hj : j < n) :
    ls.flatten[i * n + j]? = ls[i]?.bind fun l => l[j]? := by
  induction ls generalizing i with
  | nil => simp
  | cons l ls ih =>
    have hl : l.length = n := h l List.mem_cons_self
    rw [List.flatten_cons]
    cases i with
    | zero => rw [Nat.zero_mul, Nat.zero_add, List.getElem?_append_left (by omega)]; rfl
    | succ i =>
      rw [List.getElem?_append_right (by rw [hl, Nat.succ_mul]; omega), List.getElem?_cons_succ, ← ih (fun x hx => h x (List.mem_cons_of_mem _ hx)) i]
      congr 1
      rw [hl, Nat.succ_mul]
      omega

theorem flatten_length {α : Type} (n : ℕ) (ls : List (List α)) (h : ∀ l ∈ ls, l.length = n) : ls.flatten.length = ls.length * n := by
  induction ls with
  | nil => simp
  | cons l ls ih =>
    rw [List.flatten_cons, List.length_append, ih fun x hx => h x (List.mem_cons_of_mem _ hx), h l List.mem_cons_self, List.length_cons, Nat.succ_mul]
    omega

theorem places_get (r : Raster K) (i j : ℕ) (hi : i < r.nrows) (hj : j < r.ncols) : (places r)[i * r.ncols + j]? = some (r.long j, r.lat i) := by
  unfold places
  rw [List.flatMap_def, flatten_get r.ncols _ (by intro l hl; obtain ⟨k, -, rfl⟩ := List.mem_map.mp hl; simp) i j hj]
  simp only [List.getElem?_map, List.getElem?_range hi, Option.map_some, Option.bind_some, List.getElem?_range hj]
  have e : ((r.nrows - 1 - i : ℕ) : K) = (r.nrows : K) - 1 - (i : K) := by
    have : r.nrows - 1 - i + i + 1 = r.nrows := by omega
    have h2 : ((r.nrows - 1 - i : ℕ) : K) + (i : K) + 1 = (r.nrows : K) := by exact_mod_cast congrArg (Nat.cast : ℕ → K) this
    rw [← h2]; ring
  congr 2
  unfold Raster.lat
  rw [e]
  ring

theorem load_ok (r : Raster K) (h : r.Ok) : load r.lines = some r.lines := by
  obtain ⟨h0, -, -, -, hl⟩ := h
  unfold load
  have e : (r.lines.filter fun l => !l.isEmpty) = r.lines := by
    rw [List.filter_eq_self]
    intro l hm
    have := hl l hm
    cases l with
    | nil => simp at this; omega
    | cons => rfl
  simp only [e]
  rw [if_pos]
  rw [List.all_eq_true]
  intro l hm
  cases hr : r.lines with
  | nil => rw [hr] at hm; simp at hm
  | cons a t =>
    have ha := hl a (by rw [hr]; exact List.mem_cons_self)
    simp [hl l hm, ha]

/-- Numbers of values and their rows and columns. -/
theorem mem_present (r : Raster K) (h : r.Ok) (i j : ℕ) (hj : j < r.ncols) :
    i * r.ncols + j ∈ present r.nodata r.lines.flatten ↔ ∃ v, r.Has i j v ∧ r.lines.flatten.getD (i * r.ncols + j) r.nodata = v := by
  have g := flatten_get r.ncols r.lines h.2.2.2.2 i j hj
  unfold present
  rw [List.mem_filter, List.mem_range, decide_eq_true_eq]
  rw [List.getD_eq_getElem?_getD, g]
  constructor
  · rintro ⟨h1, h2⟩
    refine ⟨_, ⟨?_, h2⟩, rfl⟩
    have hv := List.getElem?_eq_getElem h1
    rw [g] at hv
    generalize r.lines.flatten[i * r.ncols + j] = v at hv
    rw [Option.bind_eq_some_iff] at hv
    obtain ⟨l, hl, hv⟩ := hv
    exact ⟨l, hl, by rw [hl, Option.bind_some, hv]; rfl⟩
  · rintro ⟨v, ⟨⟨l, hl, hv⟩, hn⟩, e⟩
    rw [hl, Option.bind_some, hv] at e ⊢
    refine ⟨?_, hn⟩
    rw [hl, Option.bind_some, hv] at g
    exact (List.getElem?_eq_some_iff.mp g).1

theorem present_split (r : Raster K) (h : r.Ok) (k : ℕ) (hk : k ∈ present r.nodata r.lines.flatten) :
    ∃ i j, i < r.nrows ∧ j < r.ncols ∧ k = i * r.ncols + j := by
  unfold present at hk
  have h1 := List.mem_range.mp (List.mem_filter.mp hk).1
  rw [flatten_length r.ncols _ h.2.2.2.2, h.2.2.2.1] at h1
  refine ⟨k / r.ncols, k % r.ncols, ?_, Nat.mod_lt _ h.1, ?_⟩
  · exact (Nat.div_lt_iff_lt_mul h.1).mpr h1
  · rw [Nat.mul_comm]; exact (Nat.div_add_mod k r.ncols).symm

/-- The place of a value by its number. -/
def place (r : Raster K) (k : ℕ) : K × K := (r.long (k % r.ncols), r.lat (k / r.ncols))

theorem split_place (r : Raster K) (i j : ℕ) (hj : j < r.ncols) : place r (i * r.ncols + j) = (r.long j, r.lat i) := by
  have h0 : 0 < r.ncols := by omega
  unfold place
  have e1 : (i * r.ncols + j) % r.ncols = j := by rw [Nat.add_comm, Nat.add_mul_mod_self_right, Nat.mod_eq_of_lt hj]
  have e2 : (i * r.ncols + j) / r.ncols = i := by rw [Nat.add_comm, Nat.add_mul_div_right _ _ h0, Nat.div_eq_of_lt hj, Nat.zero_add]
  rw [e1, e2]

theorem mapM_places (r : Raster K) (l : List ℕ) (h : ∀ k ∈ l, ∃ i j, i < r.nrows ∧ j < r.ncols ∧ k = i * r.ncols + j) :
    (l.mapM fun k => (places r)[k]?) = some (l.map (place r)) := by
  induction l with
  | nil => rfl
  | cons a l ih =>
    obtain ⟨i, j, hi, hj, rfl⟩ := h a List.mem_cons_self
    rw [List.mapM_cons, places_get r i j hi hj, ih fun k hk => h k (List.mem_cons_of_mem _ hk)]
    simp [split_place r i j hj]

/-- The conversion of a file as its header says. -/
theorem convert_ok (utm : K → K → ℤ × K × K) (r : Raster K) (h : r.Ok) :
    convert utm r =
      if present r.nodata r.lines.flatten = [] ∨ ∃ k ∈ present r.nodata r.lines.flatten, (utm (place r k).2 (place r k).1).1 ≠ (utm r.yll r.xll).1 then none
      else some ⟨(utm r.yll r.xll).1, (utm r.yll r.xll).2, (present r.nodata r.lines.flatten).map (fun k =>
        ((utm (place r k).2 (place r k).1).2.1 - (utm r.yll r.xll).2.1, (utm (place r k).2 (place r k).1).2.2 - (utm r.yll r.xll).2.2)),
        (present r.nodata r.lines.flatten).map fun k => r.lines.flatten.getD k r.nodata⟩ := by
  unfold convert
  rw [if_neg (by rintro (e | e); exacts [h.2.1 e, h.2.2.1 e]), if_neg (by rw [h.2.2.2.1]; simp), load_ok r h]
  simp only
  rw [mapM_places r _ fun k hk => present_split r h k hk]
  simp only [List.map_map, List.map_eq_nil_iff, List.any_map, List.any_eq_true, Function.comp, decide_eq_true_eq]
  rfl

/-- C123. Each value which is not missing becomes one point at the place of its row and column, and nothing else is written. -/
theorem C123_points (utm : K → K → ℤ × K × K) (r : Raster K) (h : r.Ok) (o : Out K) (ho : convert utm r = some o) :
    (∀ x y z, o.At x y z ↔ ∃ i j, r.Has i j z ∧ (utm (r.lat i) (r.long j)).2 = (x, y)) ∧
    (∀ i j v, r.Has i j v → (utm (r.lat i) (r.long j)).1 = o.zone) ∧
    o.points.length = (r.lines.flatten.filter fun v => decide (v ≠ r.nodata)).length ∧ o.elevation.length = o.points.length := by
  rw [convert_ok utm r h] at ho
  by_cases hc : present r.nodata r.lines.flatten = [] ∨
      ∃ k ∈ present r.nodata r.lines.flatten, (utm (place r k).2 (place r k).1).1 ≠ (utm r.yll r.xll).1
  · rw [if_pos hc] at ho; cases ho
  · rw [if_neg hc] at ho
    cases ho
    have has_j : ∀ i j v, r.Has i j v → j < r.ncols := by
      rintro i j v ⟨⟨l, hl, hv⟩, -⟩
      rw [← h.2.2.2.2 l (List.mem_of_getElem? hl)]
      exact (List.getElem?_eq_some_iff.mp hv).1
    refine ⟨?_, ?_, ?_, by simp⟩
    · intro x y z
      unfold Out.At
      simp only [List.zip_map', List.mem_map]
      constructor
      · rintro ⟨p, ⟨k, hk, e⟩, ex, ey⟩
        obtain ⟨i, j, hi, hj, rfl⟩ := present_split r h k hk
        obtain ⟨v, hv, ev⟩ := (mem_present r h i j hj).mp hk
        obtain ⟨e1, e2⟩ := Prod.mk.inj e
        rw [split_place r i j hj] at e1
        refine ⟨i, j, by rw [← e2, ev]; exact hv, ?_⟩
        rw [← e1] at ex ey
        simp only [sub_add_cancel] at ex ey
        rw [ex, ey]
      · rintro ⟨i, j, hv, e⟩
        have hj := has_j i j z hv
        have hk : i * r.ncols + j ∈ present r.nodata r.lines.flatten := by
          refine (mem_present r h i j hj).mpr ⟨z, hv, ?_⟩
          rw [List.getD_eq_getElem?_getD, flatten_get r.ncols r.lines h.2.2.2.2 i j hj]
          obtain ⟨⟨l, hl, hz⟩, -⟩ := hv
          rw [hl, Option.bind_some, hz]; rfl
        obtain ⟨v', ⟨⟨l', hl', hv'⟩, -⟩, ev⟩ := (mem_present r h i j hj).mp hk
        obtain ⟨⟨l, hl, hz⟩, -⟩ := hv
        have : v' = z := by
          rw [hl] at hl'; cases hl'
          rw [hz] at hv'; exact (Option.some.inj hv').symm
        subst this
        refine ⟨_, ⟨_, hk, Prod.ext rfl ev⟩, ?_, ?_⟩ <;> simp [split_place r i j hj, e]
    · intro i j v hv
      have hj := has_j i j v hv
      by_contra hne
      apply hc
      right
      refine ⟨i * r.ncols + j, ?_, ?_⟩
      · refine (mem_present r h i j hj).mpr ⟨v, hv, ?_⟩
        rw [List.getD_eq_getElem?_getD, flatten_get r.ncols r.lines h.2.2.2.2 i j hj]
        obtain ⟨⟨l, hl, hz⟩, -⟩ := hv
        rw [hl, Option.bind_some, hz]; rfl
      · rw [split_place r i j hj]; exact hne
    · simp only [List.length_map]
      unfold present
      have e : ∀ d : List K, (List.range d.length).map (fun k => d.getD k r.nodata) = d := by
        intro d
        apply List.ext_getElem?
        intro k
        by_cases hk : k < d.length
        · simp [hk]
        · simp [hk]
      conv_rhs => rw [← e r.lines.flatten, List.filter_map, List.length_map]
      rfl

/-- C123. A file as its header says is converted if it has a value and the places of all of them have the zone of the corner, and only then. -/
theorem C123_taken (utm : K → K → ℤ × K × K) (r : Raster K) (h : r.Ok) :
    (∃ o, convert utm r = some o) ↔
      (∃ i j v, r.Has i j v) ∧ ∀ i j v, r.Has i j v → (utm (r.lat i) (r.long j)).1 = (utm r.yll r.xll).1 := by
  constructor
  · rintro ⟨o, ho⟩
    have hp := C123_points utm r h o ho
    have hz := ho
    rw [convert_ok utm r h] at hz
    by_cases hc : present r.nodata r.lines.flatten = [] ∨
        ∃ k ∈ present r.nodata r.lines.flatten, (utm (place r k).2 (place r k).1).1 ≠ (utm r.yll r.xll).1
    · rw [if_pos hc] at hz; cases hz
    · rw [if_neg hc] at hz
      cases hz
      refine ⟨?_, hp.2.1⟩
      obtain ⟨k, hk⟩ := List.exists_mem_of_ne_nil _ fun e => hc (.inl e)
      obtain ⟨i, j, hi, hj, rfl⟩ := present_split r h k hk
      obtain ⟨v, hv, -⟩ := (mem_present r h i j hj).mp hk
      exact ⟨i, j, v, hv⟩
  · rintro ⟨⟨i, j, v, hv⟩, hz⟩
    rw [convert_ok utm r h, if_neg]
    · exact ⟨_, rfl⟩
    · rintro (e | ⟨k, hk, hne⟩)
      · obtain ⟨⟨l, hl, hx⟩, hn⟩ := hv
        have hj : j < r.ncols := by
          rw [← h.2.2.2.2 l (List.mem_of_getElem? hl)]
          exact (List.getElem?_eq_some_iff.mp hx).1
        have hk : i * r.ncols + j ∈ present r.nodata r.lines.flatten := by
          refine (mem_present r h i j hj).mpr ⟨v, ⟨⟨l, hl, hx⟩, hn⟩, ?_⟩
          rw [List.getD_eq_getElem?_getD, flatten_get r.ncols r.lines h.2.2.2.2 i j hj, hl, Option.bind_some, hx]; rfl
        rw [e] at hk
        simp at hk
      · obtain ⟨i, j, hi, hj, rfl⟩ := present_split r h k hk
        obtain ⟨v, hv, -⟩ := (mem_present r h i j hj).mp hk
        rw [split_place r i j hj] at hne
        exact hne (hz i j v hv)

end Verif.Llasc
