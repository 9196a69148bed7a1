import Verif.Radar.Props
import Mathlib.Data.Rat.Defs

/-!
# Volumes and areas
-/

set_option linter.unusedSectionVars false

namespace Verif.Radar

variable {K : Type} [Field K] [LinearOrder K] [IsStrictOrderedRing K]

theorem map_range_getD (d : List K) : (List.range d.length).map (fun k => d.getD k 0) = d := by
  apply List.ext_getElem?
  intro k
  by_cases hk : k < d.length
  · simp [hk]
  · simp [hk]

theorem mapM_get (d : List K) (l : List ℕ) : (l.mapM fun k => d[k]?) = if ∀ k ∈ l, k < d.length then some (l.map fun k => d.getD k 0) else none := by
  induction l with
  | nil => simp
  | cons a l ih =>
    rw [List.mapM_cons, ih]
    by_cases ha : a < d.length
    · by_cases hl : ∀ k ∈ l, k < d.length
      · have : ∀ k ∈ a :: l, k < d.length := by
          intro k hk
          rcases List.mem_cons.mp hk with rfl | hk
          exacts [ha, hl k hk]
        rw [if_pos hl, if_pos this]
        simp [ha]
      · have : ¬ ∀ k ∈ a :: l, k < d.length := fun h => hl fun k hk => h k (List.mem_cons_of_mem _ hk)
        rw [if_neg hl, if_neg this]
        simp [ha]
    · have : ¬ ∀ k ∈ a :: l, k < d.length := fun h => ha (h a List.mem_cons_self)
      rw [if_neg this]
      simp [ha]

/-- Sum over cells and slices in either order. -/
theorem sum_swap (L : List ℕ) (S : List (List K)) :
    (L.map fun k => (S.map fun s => s.getD k 0).sum).sum = (S.map fun s => (L.map fun k => s.getD k 0).sum).sum := by
  induction S with
  | nil => simp
  | cons s S ih => simp only [List.map_cons, List.sum_cons, List.sum_map_add, ih]

/-- Volume and area for data with `n` values. -/
theorem stats_data (g : Grid K) (r : Rain K) (tid : Option ℕ) (cells : Option (List ℕ)) (d : List K) (n : ℕ) (hd : d.length = n)
    (h : pick r tid = some d) :
    stats g r tid cells = if ∀ k ∈ cells.getD (List.range n), k < n then
      some (((cells.getD (List.range n)).map fun k => d.getD k 0).sum * ((g.x1 - g.x0) / (g.nx : K)) * ((g.y1 - g.y0) / (g.ny : K)),
        ((cells.getD (List.range n)).length : K) * ((g.x1 - g.x0) / (g.nx : K)) * ((g.y1 - g.y0) / (g.ny : K))) else none := by
  unfold stats
  simp only
  rw [h]
  cases cells with
  | none =>
    subst hd
    simp only [Option.getD_none]
    rw [if_pos fun k hk => List.mem_range.mp hk, map_range_getD, List.length_range]
  | some l =>
    subst hd
    simp only [Option.getD_some]
    rw [mapM_get]
    by_cases hl : ∀ k ∈ l, k < d.length
    · simp only [if_pos hl, List.length_map]
    · simp only [if_neg hl]

theorem slices_length (same : K → K → Bool) (start final : Option K) (files : List (File K)) (n : ℕ) (hn : Sized n files) (r : Rain K)
    (h : read same start final files = some r) : ∀ s ∈ r.slices, s.length = n := by
  obtain ⟨⟨l, ⟨rest, hp, -, -⟩, -, -, -, e⟩, -⟩ := C125_slices same start final files n hn r h
  intro s hs
  rw [e] at hs
  obtain ⟨f, hf, rfl⟩ := List.mem_map.mp hs
  rw [List.length_map]
  exact hn f (hp.mem_iff.mpr (List.mem_append_left _ hf))

/-- C125. The volume over all times, in all cells or in those of a polygon, is the sum of the volumes of the slices; the area is the same for all. -/
theorem C125_volume (same : K → K → Bool) (start final : Option K) (files : List (File K)) (n : ℕ) (hn : Sized n files) (r : Rain K)
    (h : read same start final files = some r) (g : Grid K) (cells : Option (List ℕ)) (V A : K) (hs : stats g r none cells = some (V, A)) :
    ∃ vs : List K, vs.length = r.slices.length ∧ (∀ (t : ℕ) v, vs[t]? = some v → stats g r (some t) cells = some (v, A)) ∧ V = vs.sum := by
  obtain ⟨-, ⟨a1, a2⟩, -⟩ := C125_slices same start final files n hn r h
  have hlen := slices_length same start final files n hn r h
  rw [stats_data g r none cells r.accumulated n a1 rfl] at hs
  by_cases hc : ∀ k ∈ cells.getD (List.range n), k < n
  · rw [if_pos hc] at hs
    obtain ⟨rfl, rfl⟩ := Prod.mk.inj (Option.some.inj hs)
    refine ⟨r.slices.map fun s => ((cells.getD (List.range n)).map fun k => s.getD k 0).sum * ((g.x1 - g.x0) / (g.nx : K)) * ((g.y1 - g.y0) / (g.ny : K)),
      by simp, ?_, ?_⟩
    · intro t v hv
      rw [List.getElem?_map, Option.map_eq_some_iff] at hv
      obtain ⟨s, hs', rfl⟩ := hv
      rw [stats_data g r (some t) cells s n (hlen s (List.mem_of_getElem? hs')) hs', if_pos hc]
    · rw [List.sum_map_mul_right, List.sum_map_mul_right, ← sum_swap]
      simp only [a2]
  · rw [if_neg hc] at hs; cases hs

/-- C125. The area of all cells is that of the box from the first to the last coordinate. -/
theorem C125_area (g : Grid K) (hx : 0 < g.nx) (hy : 0 < g.ny) (r : Rain K) (hr : r.accumulated.length = g.nx * g.ny) :
    ∃ V, stats g r none none = some (V, (g.x1 - g.x0) * (g.y1 - g.y0)) := by
  refine ⟨r.accumulated.sum * ((g.x1 - g.x0) / (g.nx : K)) * ((g.y1 - g.y0) / (g.ny : K)), ?_⟩
  · have h1 : (g.nx : K) ≠ 0 := Nat.cast_ne_zero.mpr (by omega)
    have h2 : (g.ny : K) ≠ 0 := Nat.cast_ne_zero.mpr (by omega)
    unfold stats pick
    simp only [Option.some.injEq, Prod.mk.injEq, true_and]
    rw [hr]
    push_cast
    field_simp

/-! Three files in another order, of which one is too late. -/

def f1 : File ℚ := ⟨600, 600, [1000, 2000, 0, 0]⟩
def f2 : File ℚ := ⟨1200, 600, [0, 3000, 0, 1000]⟩
def f3 : File ℚ := ⟨1800, 600, [9000, 9000, 9000, 9000]⟩

example : (read (fun a b => decide (a = b)) none (some 1500) [f2, f3, f1]).map (fun r => (r.start, r.times, r.accumulated)) =
    some (0, [600, 1200], [1, 5, 0, 1]) := by decide +kernel

example : (read (fun a b => decide (a = b)) none (some 1500) [f2, f3, f1]).map (fun r => (r.slices, r.greatest)) =
    some ([[1, 2, 0, 0], [0, 3, 0, 1]], 3) := by decide +kernel

example : Sized 4 [f2, f3, f1] ∧ ([f2, f3, f1].map File.time).Nodup ∧ (∀ f ∈ [f2, f3, f1], f.period = 600) ∧ [f2, f3, f1].Perm [f1, f2, f3] := by
  refine ⟨?_, by decide +kernel, ?_, ?_⟩
  · intro f hf; simp at hf; rcases hf with rfl | rfl | rfl <;> rfl
  · intro f hf; simp at hf; rcases hf with rfl | rfl | rfl <;> rfl
  · exact (List.perm_append_comm (l₁ := [f2, f3]) (l₂ := [f1]))

/-- Two by two cells with centres one kilometre apart. -/
def km : Grid ℚ := ⟨0, 1000, 0, 1000, 2, 2⟩

def wet : Rain ℚ := ⟨600, 0, [600], [[1, 1, 1, 1]], [1, 1, 1, 1], 1⟩

example : 0 < km.nx ∧ 0 < km.ny ∧ wet.accumulated.length = km.nx * km.ny := by decide

/-- C125. The volume is too small: a metre of rain on four cells of a square kilometre is given as that on one, since the extent goes from centre to centre and is
divided by the number of centres. -/
theorem C125_small : (stats km wet none none).map Prod.fst = some (1000 * 1000) ∧ (4 * (1000 * 1000) : ℚ) ≠ 1000 * 1000 := by decide +kernel

end Verif.Radar
