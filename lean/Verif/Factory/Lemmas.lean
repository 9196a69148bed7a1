import Verif.Basic
import Verif.Factory.Model
import Mathlib.Data.List.Basic

/-! # Closed forms of the generated meshes -/

namespace Verif.Factory

set_option linter.unusedSectionVars false

open Verif.Polygon (Pt)

variable {K : Type*} [Field K]

/-! ## Loops -/

theorem flatMap_get {α β : Type*} (f : α → List β) (r : ℕ) (hf : ∀ a, (f a).length = r) (l : List α) (c k : ℕ) (hk : k < r) :
    (l.flatMap f)[r * c + k]? = (l[c]?).bind fun a => (f a)[k]? := by
  induction l generalizing c with
  | nil => simp
  | cons a l ih =>
    rw [List.flatMap_cons]
    cases c with
    | zero =>
      rw [List.getElem?_append_left (by rw [hf]; omega)]
      simp
    | succ c =>
      rw [List.getElem?_append_right (by rw [hf, Nat.mul_succ]; omega)]
      have e : r * (c + 1) + k - (f a).length = r * c + k := by rw [hf, Nat.mul_succ]; omega
      rw [e, ih c]
      simp

theorem flatMap_length {α β : Type*} (f : α → List β) (r : ℕ) (hf : ∀ a, (f a).length = r) (l : List α) : (l.flatMap f).length = r * l.length := by
  induction l with
  | nil => simp
  | cons a l ih => rw [List.flatMap_cons, List.length_append, hf, ih, List.length_cons]; ring

theorem loop2_length (m n : ℕ) : (loop2 m n).length = m * n := by
  unfold loop2
  rw [flatMap_length _ n (by simp), List.length_range]; ring

theorem loop2_get (m n i j : ℕ) (hi : i < m) (hj : j < n) : (loop2 m n)[i * n + j]? = some (i, j) := by
  unfold loop2
  rw [mul_comm, flatMap_get _ n (by simp) _ _ _ hj, List.getElem?_range hi]
  simp [hj]

theorem mem_loop2 (m n : ℕ) (c : ℕ × ℕ) : c ∈ loop2 m n ↔ c.1 < m ∧ c.2 < n := by
  unfold loop2
  simp only [List.mem_flatMap, List.mem_range, List.mem_map]
  constructor
  · rintro ⟨i, hi, j, hj, rfl⟩; exact ⟨hi, hj⟩
  · rintro ⟨h1, h2⟩; exact ⟨c.1, h1, c.2, h2, rfl⟩

/-- Every position is that of a pair. -/
theorem split_index {m n k : ℕ} (h : k < m * n) : k / n < m ∧ k % n < n ∧ k = k / n * n + k % n := by
  have hn : 0 < n := by
    rcases Nat.eq_zero_or_pos n with h0 | h0
    · rw [h0] at h; omega
    · exact h0
  exact ⟨Nat.div_lt_of_lt_mul (by rwa [mul_comm]), Nat.mod_lt _ hn, by rw [mul_comm]; exact (Nat.div_add_mod k n).symm⟩

/-- Number of a pair in a grid with rows of length `n`. -/
theorem pair_inj {n i j i' j' : ℕ} (hj : j < n) (hj' : j' < n) (h : i * n + j = i' * n + j') : i = i' ∧ j = j' := by
  have hn : 0 < n := by omega
  have h1 : (i * n + j) / n = i := by
    rw [mul_comm, Nat.mul_add_div hn, Nat.div_eq_of_lt hj, add_zero]
  have h2 : (i' * n + j') / n = i' := by
    rw [mul_comm, Nat.mul_add_div hn, Nat.div_eq_of_lt hj', add_zero]
  have h3 : i = i' := by rw [← h1, ← h2, h]
  subst h3
  exact ⟨rfl, by omega⟩

/-- The loop with a counter. -/
theorem loop2_numbered (m n : ℕ) : (loop2 m n).zipIdx = (loop2 m n).map fun c => (c, c.1 * n + c.2) := by
  apply List.ext_getElem?
  intro k
  rw [List.getElem?_zipIdx, List.getElem?_map]
  by_cases hk : k < m * n
  · obtain ⟨h1, h2, h3⟩ := split_index hk
    rw [h3, loop2_get m n _ _ h1 h2]
    simp
  · rw [List.getElem?_eq_none (by rw [loop2_length]; omega)]
    rfl

theorem loop2_nodup (m n : ℕ) : (loop2 m n).Nodup := by
  rw [List.nodup_iff_getElem?_ne_getElem?]
  intro a b hab hb
  rw [loop2_length] at hb
  obtain ⟨a1, a2, a3⟩ := split_index (lt_trans hab hb)
  obtain ⟨b1, b2, b3⟩ := split_index hb
  rw [a3, b3, loop2_get m n _ _ a1 a2, loop2_get m n _ _ b1 b2]
  intro h
  simp only [Option.some.injEq, Prod.mk.injEq] at h
  rw [h.1, h.2, ← b3] at a3
  omega

/-! ## The cross mesh, Python -/

/-- Coordinates of a grid point. -/
def gridPt (d1 d2 : K) (o : K × K) (c : ℕ × ℕ) : Pt K := ⟨d1 * c.1 + o.1, d2 * c.2 + o.2⟩

theorem grid_fold (d1 d2 : K) (o : K × K) (l : List (ℕ × ℕ)) : ∀ s : List ((ℕ × ℕ) × ℕ) × List (Pt K),
    l.foldl (gridStep d1 d2 o) s = (s.1 ++ l.zipIdx s.2.length, s.2 ++ l.map (gridPt d1 d2 o)) := by
  induction l with
  | nil => intro s; simp
  | cons c l ih =>
    intro s
    rw [List.foldl_cons, ih]
    simp [gridStep, gridPt, List.zipIdx_cons]

theorem lookup_zipIdx (l : List (ℕ × ℕ)) (hl : l.Nodup) (k b : ℕ) (c : ℕ × ℕ) (h : l[k]? = some c) : (l.zipIdx b).lookup c = some (b + k) := by
  induction l generalizing k b with
  | nil => simp at h
  | cons a l ih =>
    rw [List.zipIdx_cons, List.lookup_cons]
    cases k with
    | zero =>
      simp only [List.getElem?_cons_zero, Option.some.injEq] at h
      subst h
      simp
    | succ k =>
      rw [List.getElem?_cons_succ] at h
      have hne : c ≠ a := by
        rintro rfl
        exact (List.nodup_cons.mp hl).1 (List.mem_of_getElem? h)
      have : (c == a) = false := by simpa using hne
      rw [this]
      simp only
      rw [ih (List.nodup_cons.mp hl).2 k (b + 1) h]
      congr 1
      omega

/-- Node numbers of the grid points. -/
def gnode (n i j : ℕ) : ℕ := i * (n + 1) + j

theorem vertex_grid (m n i j : ℕ) (d1 d2 : K) (o : K × K) (hi : i ≤ m) (hj : j ≤ n) :
    vertex ((loop2 (m + 1) (n + 1)).foldl (gridStep d1 d2 o) ([], [])).1 i j = gnode n i j := by
  unfold vertex gnode
  rw [grid_fold]
  simp only [List.nil_append, List.length_nil]
  rw [lookup_zipIdx _ (loop2_nodup _ _) _ 0 (i, j) (loop2_get (m + 1) (n + 1) i j (by omega) (by omega))]
  simp

/-- The four triangles of cell `(i, j)` when its centre is node `v`. -/
def cross4 (n : ℕ) (v : ℕ) (c : ℕ × ℕ) : List (ℕ × ℕ × ℕ) :=
  [(gnode n c.1 c.2, v, gnode n c.1 (c.2 + 1)), (gnode n (c.1 + 1) c.2, v, gnode n c.1 c.2),
    (gnode n (c.1 + 1) (c.2 + 1), v, gnode n (c.1 + 1) c.2), (gnode n c.1 (c.2 + 1), v, gnode n (c.1 + 1) (c.2 + 1))]

/-- The boundary entries of cell `(i, j)` when its first triangle has number `k`. -/
def crossMarks (m n k : ℕ) (c : ℕ × ℕ) : List ((ℕ × ℕ) × String) :=
  mark (mark (mark (mark [] (c.1 == 0) k 1 "left") (c.2 == 0) (k + 1) 1 "bottom") (c.1 + 1 == m) (k + 2) 1 "right") (c.2 + 1 == n) (k + 3) 1 "top"

theorem mark_append (b b' : List ((ℕ × ℕ) × String)) (c : Bool) (k e : ℕ) (t : String) : mark (b ++ b') c k e t = b ++ mark b' c k e t := by
  unfold mark
  cases c <;> simp

/-- Centre of a cell. -/
def centre (d1 d2 : K) (o : K × K) (c : ℕ × ℕ) : Pt K :=
  mean4 (gridPt d1 d2 o (c.1, c.2 + 1)) (gridPt d1 d2 o c) (gridPt d1 d2 o (c.1 + 1, c.2 + 1)) (gridPt d1 d2 o (c.1 + 1, c.2))

theorem grid_get (m n i j : ℕ) (d1 d2 : K) (o : K × K) (hi : i ≤ m) (hj : j ≤ n) (ext : List (Pt K)) :
    ((loop2 (m + 1) (n + 1)).map (gridPt d1 d2 o) ++ ext).getD (gnode n i j) ⟨0, 0⟩ = gridPt d1 d2 o (i, j) := by
  have h := loop2_get (m + 1) (n + 1) i j (by omega) (by omega)
  have hl : gnode n i j < ((loop2 (m + 1) (n + 1)).map (gridPt d1 d2 o)).length := by
    rw [List.length_map]; exact (List.getElem?_eq_some_iff.mp h).1
  rw [List.getD_eq_getElem?_getD, List.getElem?_append_left hl, List.getElem?_map]
  unfold gnode
  rw [h]
  rfl

theorem cross_fold (m n : ℕ) (d1 d2 : K) (o : K × K) (l : List (ℕ × ℕ)) (hl : ∀ c ∈ l, c.1 < m ∧ c.2 < n) :
    ∀ (ext : List (Pt K)) (e : List (ℕ × ℕ × ℕ)) (b : List ((ℕ × ℕ) × String)),
      l.foldl (crossCell m n ((loop2 (m + 1) (n + 1)).foldl (gridStep d1 d2 o) ([], [])).1)
        ⟨(loop2 (m + 1) (n + 1)).map (gridPt d1 d2 o) ++ ext, e, b⟩ =
      ⟨(loop2 (m + 1) (n + 1)).map (gridPt d1 d2 o) ++ (ext ++ l.map (centre d1 d2 o)),
        e ++ (l.zipIdx).flatMap (fun p => cross4 n ((m + 1) * (n + 1) + ext.length + p.2) p.1),
        b ++ (l.zipIdx).flatMap (fun p => crossMarks m n (e.length + 4 * p.2) p.1)⟩ := by
  induction l with
  | nil => intro ext e b; simp
  | cons c l ih =>
    intro ext e b
    obtain ⟨h1, h2⟩ := hl c (by simp)
    rw [List.foldl_cons]
    have hstep : crossCell m n ((loop2 (m + 1) (n + 1)).foldl (gridStep d1 d2 o) ([], [])).1
        ⟨(loop2 (m + 1) (n + 1)).map (gridPt d1 d2 o) ++ ext, e, b⟩ c =
        ⟨(loop2 (m + 1) (n + 1)).map (gridPt d1 d2 o) ++ (ext ++ [centre d1 d2 o c]),
          e ++ cross4 n ((m + 1) * (n + 1) + ext.length) c, b ++ crossMarks m n e.length c⟩ := by
      unfold crossCell
      simp only
      rw [vertex_grid m n c.1 (c.2 + 1) d1 d2 o (by omega) (by omega), vertex_grid m n c.1 c.2 d1 d2 o (by omega) (by omega),
        vertex_grid m n (c.1 + 1) (c.2 + 1) d1 d2 o (by omega) (by omega), vertex_grid m n (c.1 + 1) c.2 d1 d2 o (by omega) (by omega),
        grid_get m n c.1 (c.2 + 1) d1 d2 o (by omega) (by omega), grid_get m n c.1 c.2 d1 d2 o (by omega) (by omega),
        grid_get m n (c.1 + 1) (c.2 + 1) d1 d2 o (by omega) (by omega), grid_get m n (c.1 + 1) c.2 d1 d2 o (by omega) (by omega)]
      simp only [List.append_assoc, List.length_append, List.length_map, loop2_length, List.length_cons, List.length_nil, crossMarks, cross4, centre,
        Out.mk.injEq, List.cons_append, List.nil_append, true_and]
      rw [← List.append_nil b]
      simp only [mark_append]
      simp
    rw [hstep, ih (fun c hc => hl c (by simp [hc]))]
    have z : l.zipIdx 1 = l.zipIdx.map fun p => (p.1, p.2 + 1) := by
      rw [List.zipIdx_succ]
    simp only [List.zipIdx_cons, List.flatMap_cons, List.map_cons, List.append_assoc, List.length_append, List.length_cons, List.length_nil,
      zero_add, z, List.flatMap_map, add_zero, mul_zero]
    congr 3
    · apply List.flatMap_congr
      intro p _
      congr 1
      omega
    · apply List.flatMap_congr
      intro p _
      congr 1
      have : (cross4 n ((m + 1) * (n + 1) + ext.length) c).length = 4 := rfl
      omega

/-- Number of the centre of a cell. -/
def cnode (m n i j : ℕ) : ℕ := (m + 1) * (n + 1) + (i * n + j)

/-- **Closed form.** -/
theorem crossPython_eq (m n : ℕ) (len1 len2 : K) (o : K × K) :
    crossPython m n len1 len2 o =
      ⟨(loop2 (m + 1) (n + 1)).map (gridPt (len1 / m) (len2 / n) o) ++ (loop2 m n).map (centre (len1 / m) (len2 / n) o),
        (loop2 m n).flatMap (fun c => cross4 n (cnode m n c.1 c.2) c),
        (loop2 m n).flatMap (fun c => crossMarks m n (4 * (c.1 * n + c.2)) c)⟩ := by
  unfold crossPython
  simp only
  have hg : ((loop2 (m + 1) (n + 1)).foldl (gridStep (len1 / m) (len2 / n) o) ([], [])).2 =
      (loop2 (m + 1) (n + 1)).map (gridPt (len1 / m) (len2 / n) o) ++ [] := by rw [grid_fold]; simp
  rw [hg, cross_fold m n _ _ o (loop2 m n) (fun c hc => (mem_loop2 m n c).mp hc), loop2_numbered]
  simp only [List.nil_append, List.length_nil, add_zero, zero_add, List.flatMap_map, cnode]

/-! ## The cross mesh, compiled -/

theorem set_at {α : Type*} (l r : List α) (x y : α) : (l ++ x :: r).set l.length y = l ++ y :: r := by
  rw [List.set_append_right _ _ (le_refl _)]; simp

theorem cgrid_fold (d1 d2 : K) (o : K × K) (l : List (ℕ × ℕ)) : ∀ (s : CSt K) (done rest : List (Pt K)), s.points = done ++ rest →
    s.numPoints = done.length → l.length ≤ rest.length →
    let r := l.foldl (cGrid d1 d2 o) s
    r.points = (done ++ l.map (gridPt d1 d2 o)) ++ rest.drop l.length ∧ r.numPoints = done.length + l.length ∧ r.elems = s.elems ∧
      r.numElems = s.numElems ∧ r.boundary = s.boundary ∧
      (∀ i j, (i, j) ∉ l → r.vertices i j = s.vertices i j) ∧
      (l.Nodup → ∀ i j k, l[k]? = some (i, j) → r.vertices i j = done.length + k) := by
  induction l with
  | nil => intro s done rest h1 h2 _; exact ⟨by simp [h1], by simp [h2], rfl, rfl, rfl, fun _ _ _ => rfl, by simp⟩
  | cons c l ih =>
    intro s done rest h1 h2 h3
    cases rest with
    | nil => simp at h3
    | cons x rest =>
      rw [List.foldl_cons]
      have e1 : (cGrid d1 d2 o s c).points = (done ++ [gridPt d1 d2 o c]) ++ rest := by
        simp only [cGrid, h1, h2, set_at, gridPt, List.append_assoc, List.cons_append, List.nil_append]
        simp only [mul_comm]
      obtain ⟨k1, k2, k3, k4, k5, k6, k7⟩ := ih (cGrid d1 d2 o s c) (done ++ [gridPt d1 d2 o c]) rest e1 (by simp [cGrid, h2])
        (by simp only [List.length_cons] at h3; omega)
      refine ⟨?_, ?_, k3, k4, k5, ?_, ?_⟩
      · rw [k1]; simp
      · rw [k2]; simp; omega
      · intro i j hij
        simp only [List.mem_cons, not_or] at hij
        rw [k6 i j hij.2]
        simp only [cGrid]
        rw [if_neg]
        rintro ⟨rfl, rfl⟩
        exact hij.1 rfl
      · intro hn i j k hk
        obtain ⟨hn1, hn2⟩ := List.nodup_cons.mp hn
        cases k with
        | zero =>
          simp only [List.getElem?_cons_zero, Option.some.injEq] at hk
          subst hk
          rw [k6 i j hn1]
          simp [cGrid, h2]
        | succ k =>
          rw [List.getElem?_cons_succ] at hk
          rw [k7 hn2 i j k hk]
          simp; omega

theorem set_four {α : Type*} (l r : List α) (h : 4 ≤ r.length) (a b c d : α) :
    ((((l ++ r).set l.length a).set (l.length + 1) b).set (l.length + 2) c).set (l.length + 3) d = (l ++ [a, b, c, d]) ++ r.drop 4 := by
  match r, h with
  | x0 :: x1 :: x2 :: x3 :: r, _ =>
    rw [set_at]
    have e1 : l ++ a :: x1 :: x2 :: x3 :: r = (l ++ [a]) ++ x1 :: x2 :: x3 :: r := by simp
    rw [e1, show l.length + 1 = (l ++ [a]).length by simp, set_at]
    have e2 : (l ++ [a]) ++ b :: x2 :: x3 :: r = (l ++ [a, b]) ++ x2 :: x3 :: r := by simp
    rw [e2, show l.length + 2 = (l ++ [a, b]).length by simp, set_at]
    have e3 : (l ++ [a, b]) ++ c :: x3 :: r = (l ++ [a, b, c]) ++ x3 :: r := by simp
    rw [e3, show l.length + 3 = (l ++ [a, b, c]).length by simp, set_at]
    simp

theorem ccell_fold (m n : ℕ) (d1 d2 : K) (o : K × K) (l : List (ℕ × ℕ)) (hl : ∀ c ∈ l, c.1 < m ∧ c.2 < n) :
    ∀ (s : CSt K) (ext rest : List (Pt K)) (e erest : List (ℕ × ℕ × ℕ)),
      s.points = ((loop2 (m + 1) (n + 1)).map (gridPt d1 d2 o) ++ ext) ++ rest → s.numPoints = (m + 1) * (n + 1) + ext.length →
      s.elems = e ++ erest → s.numElems = e.length → l.length = rest.length → 4 * l.length = erest.length →
      (∀ i j, i ≤ m → j ≤ n → s.vertices i j = gnode n i j) →
      let r := l.foldl (cCell m n) s
      r.points = (loop2 (m + 1) (n + 1)).map (gridPt d1 d2 o) ++ (ext ++ l.map (centre d1 d2 o)) ∧
        r.elems = e ++ (l.zipIdx).flatMap (fun p => cross4 n ((m + 1) * (n + 1) + ext.length + p.2) p.1) ∧
        r.boundary = s.boundary ++ (l.zipIdx).flatMap (fun p => crossMarks m n (e.length + 4 * p.2) p.1) := by
  induction l with
  | nil =>
    intro s ext rest e erest h1 h2 h3 h4 h5 h6 _
    have : rest = [] := List.eq_nil_of_length_eq_zero (by simpa using h5.symm)
    subst this
    have : erest = [] := List.eq_nil_of_length_eq_zero (by simpa using h6.symm)
    subst this
    exact ⟨by simp [h1], by simp [h3], by simp⟩
  | cons c l ih =>
    intro s ext rest e erest h1 h2 h3 h4 h5 h6 h7
    obtain ⟨g1, g2⟩ := hl c (by simp)
    cases rest with
    | nil => simp at h5
    | cons x rest =>
      rw [List.foldl_cons]
      have hlen : ((loop2 (m + 1) (n + 1)).map (gridPt d1 d2 o) ++ ext).length = (m + 1) * (n + 1) + ext.length := by
        rw [List.length_append, List.length_map, loop2_length]
      have hp : ∀ i j, i ≤ m → j ≤ n → s.points.getD (s.vertices i j) ⟨0, 0⟩ = gridPt d1 d2 o (i, j) := by
        intro i j hi hj
        rw [h7 i j hi hj, h1, List.append_assoc, grid_get m n i j d1 d2 o hi hj]
      have e1 : (cCell m n s c).points = ((loop2 (m + 1) (n + 1)).map (gridPt d1 d2 o) ++ (ext ++ [centre d1 d2 o c])) ++ rest := by
        simp only [cCell]
        rw [hp c.1 (c.2 + 1) (by omega) (by omega), hp c.1 c.2 (by omega) (by omega), hp (c.1 + 1) (c.2 + 1) (by omega) (by omega),
          hp (c.1 + 1) c.2 (by omega) (by omega), h1, h2, ← hlen, set_at]
        simp [centre]
      have e2 : (cCell m n s c).elems = (e ++ cross4 n ((m + 1) * (n + 1) + ext.length) c) ++ erest.drop 4 := by
        simp only [cCell]
        rw [h3, h4, set_four _ _ (by rw [← h6, List.length_cons]; omega), h7 c.1 (c.2 + 1) (by omega) (by omega), h7 c.1 c.2 (by omega) (by omega),
          h7 (c.1 + 1) (c.2 + 1) (by omega) (by omega), h7 (c.1 + 1) c.2 (by omega) (by omega), h2]
        rfl
      have e3 : (cCell m n s c).boundary = s.boundary ++ crossMarks m n e.length c := by
        simp only [cCell, crossMarks, h4]
        rw [← List.append_nil s.boundary]
        simp only [mark_append]
        simp
      obtain ⟨k1, k2, k3⟩ := ih (fun c hc => hl c (by simp [hc])) (cCell m n s c) (ext ++ [centre d1 d2 o c]) rest
        (e ++ cross4 n ((m + 1) * (n + 1) + ext.length) c) (erest.drop 4) e1 (by simp [cCell, h2]; omega) e2
        (by simp [cCell, h4, cross4]) (by simpa using h5) (by rw [List.length_drop, ← h6, List.length_cons]; omega) h7
      have z : l.zipIdx 1 = l.zipIdx.map fun p => (p.1, p.2 + 1) := by rw [List.zipIdx_succ]
      refine ⟨?_, ?_, ?_⟩
      · rw [k1]; simp
      · rw [k2]
        simp only [List.zipIdx_cons, List.flatMap_cons, List.append_assoc, List.length_append, List.length_cons, List.length_nil,
          zero_add, z, List.flatMap_map, add_zero]
        congr 2
        apply List.flatMap_congr
        intro p _
        congr 1
        omega
      · rw [k3, e3]
        simp only [List.zipIdx_cons, List.flatMap_cons, List.append_assoc, List.length_append,
          zero_add, z, List.flatMap_map, add_zero, mul_zero]
        congr 2
        apply List.flatMap_congr
        intro p _
        congr 1
        have : (cross4 n ((m + 1) * (n + 1) + ext.length) c).length = 4 := rfl
        omega

/-- Both implementations agree, whatever the arrays contained. -/
theorem crossC_eq (m n : ℕ) (len1 len2 : K) (o : K × K) (points : List (Pt K)) (elems : List (ℕ × ℕ × ℕ))
    (hp : points.length = (m + 1) * (n + 1) + m * n) (he : elems.length = 4 * m * n) :
    crossC m n len1 len2 o points elems = crossPython m n len1 len2 o := by
  rw [crossPython_eq]
  unfold crossC
  simp only
  obtain ⟨k1, k2, k3, k4, k5, -, k7⟩ := cgrid_fold (len1 / m) (len2 / n) o (loop2 (m + 1) (n + 1)) ⟨fun _ _ => 0, points, 0, elems, 0, []⟩ [] points rfl rfl
    (by rw [loop2_length, hp]; omega)
  obtain ⟨j1, j2, j3⟩ := ccell_fold m n (len1 / m) (len2 / n) o (loop2 m n) (fun c hc => (mem_loop2 m n c).mp hc) _ [] (points.drop (loop2 (m + 1) (n + 1)).length) [] elems
    (by rw [k1]; simp) (by rw [k2, loop2_length]; simp) k3 k4 (by rw [List.length_drop, loop2_length, loop2_length, hp]; omega)
    (by rw [loop2_length, he]; ring)
    (by
      intro i j hi hj
      rw [k7 (loop2_nodup _ _) i j (i * (n + 1) + j) (loop2_get (m + 1) (n + 1) i j (by omega) (by omega))]
      simp [gnode])
  rw [j1, j2, j3, k5, loop2_numbered]
  simp only [List.nil_append, List.length_nil, add_zero, zero_add, List.flatMap_map, cnode]

/-! ## The diagonal mesh -/

theorem fold_set {α : Type*} (idx : ℕ × ℕ → ℕ) (f : ℕ × ℕ → α) (l : List (ℕ × ℕ)) : ∀ done rest : List α, l.length = rest.length →
    (∀ (k : ℕ) (c : ℕ × ℕ), l[k]? = some c → idx c = done.length + k) →
    l.foldl (fun p c => p.set (idx c) (f c)) (done ++ rest) = done ++ l.map f := by
  induction l with
  | nil =>
    intro done rest h _
    have : rest = [] := List.eq_nil_of_length_eq_zero (by simpa using h.symm)
    subst this
    simp
  | cons c l ih =>
    intro done rest h hi
    cases rest with
    | nil => simp at h
    | cons x rest =>
      rw [List.foldl_cons, hi 0 c (by simp), add_zero, set_at]
      have := ih (done ++ [f c]) rest (by simpa using h) (by
        intro k c' hk
        rw [hi (k + 1) c' (by simpa using hk)]
        simp; omega)
      rw [List.append_assoc, List.singleton_append] at this
      rw [this]; simp

theorem gridArray_eq (m n : ℕ) (d1 d2 : K) (o : K × K) : gridArray m n d1 d2 o = (loop2 (m + 1) (n + 1)).map (gridPt d1 d2 o) := by
  unfold gridArray
  have h := fold_set (fun c => index n c.1 c.2) (gridPt d1 d2 o) (loop2 (m + 1) (n + 1)) [] (List.replicate ((m + 1) * (n + 1)) ⟨0, 0⟩)
    (by rw [loop2_length, List.length_replicate]) (by
      intro k c hk
      have hlt : k < (m + 1) * (n + 1) := by
        rw [← loop2_length]; exact (List.getElem?_eq_some_iff.mp hk).1
      obtain ⟨h1, h2, h3⟩ := split_index hlt
      rw [h3, loop2_get _ _ _ _ h1 h2] at hk
      simp only [Option.some.injEq] at hk
      subst hk
      simp only [index, List.length_nil, zero_add]
      omega)
  simp only [List.nil_append] at h
  rw [← h]
  congr 1
  funext p c
  simp only [gridPt, mul_comm]

/-- The two triangles of cell `(i, j)`. -/
def rect2 (n : ℕ) (c : ℕ × ℕ) : List (ℕ × ℕ × ℕ) :=
  [(gnode n (c.1 + 1) c.2, gnode n (c.1 + 1) (c.2 + 1), gnode n c.1 c.2), (gnode n c.1 (c.2 + 1), gnode n c.1 c.2, gnode n (c.1 + 1) (c.2 + 1))]

/-- The boundary entries of cell `(i, j)` when its first triangle has number `k`. -/
def rectMarks (m n k : ℕ) (c : ℕ × ℕ) : List ((ℕ × ℕ) × String) :=
  mark (mark (mark (mark [] (c.1 + 1 == m) k 2 "right") (c.2 == 0) k 1 "bottom") (c.1 == 0) (k + 1) 2 "left") (c.2 + 1 == n) (k + 1) 1 "top"

theorem set_two {α : Type*} (l r : List α) (h : 2 ≤ r.length) (a b : α) :
    ((l ++ r).set l.length a).set (l.length + 1) b = (l ++ [a, b]) ++ r.drop 2 := by
  match r, h with
  | x0 :: x1 :: r, _ =>
    rw [set_at]
    have e1 : l ++ a :: x1 :: r = (l ++ [a]) ++ x1 :: r := by simp
    rw [e1, show l.length + 1 = (l ++ [a]).length by simp, set_at]
    simp

theorem index_eq (n i j : ℕ) : index n i j = gnode n i j := by unfold index gnode; omega

theorem rect_fold (m n : ℕ) (l : List (ℕ × ℕ)) : ∀ (e rest : List (ℕ × ℕ × ℕ)) (b : List ((ℕ × ℕ) × String)), 2 * l.length = rest.length →
    l.foldl (rectCell m n) (e ++ rest, b, e.length) =
      (e ++ l.flatMap (rect2 n), b ++ l.zipIdx.flatMap (fun p => rectMarks m n (e.length + 2 * p.2) p.1), e.length + 2 * l.length) := by
  induction l with
  | nil =>
    intro e rest b h
    have : rest = [] := List.eq_nil_of_length_eq_zero (by simpa using h.symm)
    subst this
    simp
  | cons c l ih =>
    intro e rest b h
    rw [List.foldl_cons]
    have hstep : rectCell m n (e ++ rest, b, e.length) c = ((e ++ rect2 n c) ++ rest.drop 2, b ++ rectMarks m n e.length c, (e ++ rect2 n c).length) := by
      unfold rectCell
      simp only [index_eq]
      rw [set_two _ _ (by rw [← h, List.length_cons]; omega)]
      refine Prod.ext rfl (Prod.ext ?_ ?_)
      · simp only [rectMarks]
        rw [← List.append_nil b]
        simp only [mark_append]
        simp
      · simp [rect2]
    rw [hstep, ih _ _ _ (by rw [List.length_drop, ← h, List.length_cons]; omega)]
    have z : l.zipIdx 1 = l.zipIdx.map fun p => (p.1, p.2 + 1) := by rw [List.zipIdx_succ]
    have hl : (rect2 n c).length = 2 := rfl
    refine Prod.ext ?_ (Prod.ext ?_ ?_)
    · simp
    · simp only [List.zipIdx_cons, List.flatMap_cons, List.append_assoc, List.length_append, zero_add, z, List.flatMap_map, add_zero, mul_zero]
      congr 2
      apply List.flatMap_congr
      intro p _
      congr 1
      omega
    · simp only [List.length_append, hl, List.length_cons]
      omega

theorem rectangular_eq (m n : ℕ) (len1 len2 : K) (o : K × K) :
    rectangular m n len1 len2 o =
      ⟨(loop2 (m + 1) (n + 1)).map (gridPt (len1 / m) (len2 / n) o), (loop2 m n).flatMap (rect2 n),
        (loop2 m n).flatMap (fun c => rectMarks m n (2 * (c.1 * n + c.2)) c)⟩ := by
  unfold rectangular
  simp only
  have h := rect_fold m n (loop2 m n) [] (List.replicate (2 * m * n) (0, 0, 0)) [] (by rw [loop2_length, List.length_replicate]; ring)
  simp only [List.nil_append, List.length_nil, zero_add] at h
  rw [h, gridArray_eq, loop2_numbered]
  simp only [List.flatMap_map]

/-! ## The periodic mesh -/

/-- Triangles of the cells satisfying a condition. -/
def picked (n : ℕ) (p : ℕ → Bool) (l : List (ℕ × ℕ)) : List ℕ := l.flatMap fun c => if p c.1 then [2 * (c.2 + c.1 * n), 2 * (c.2 + c.1 * n) + 1] else []

theorem push_push (l : List ℕ) (c : Bool) (x y : ℕ) : push (push l c x) c y = l ++ if c then [x, y] else [] := by
  unfold push
  cases c <;> simp

theorem periodic_fold (m n : ℕ) (l : List (ℕ × ℕ)) : ∀ (e rest : List (ℕ × ℕ × ℕ)) (b : List ((ℕ × ℕ) × String)) (gl fl gr fr : List ℕ),
    2 * l.length = rest.length → (∀ (k : ℕ) (c : ℕ × ℕ), l[k]? = some c → 2 * (c.2 + c.1 * n) = e.length + 2 * k) →
    l.foldl (periodicCell m n) ⟨e ++ rest, b, gl, fl, gr, fr⟩ =
      ⟨e ++ l.flatMap (rect2 n), b ++ l.flatMap (fun c => rectMarks m n (2 * (c.1 * n + c.2)) c),
        gl ++ picked n (· == 0) l, fl ++ picked n (· == 1) l, gr ++ picked n (fun i => i + 1 == m) l, fr ++ picked n (fun i => i + 2 == m) l⟩ := by
  induction l with
  | nil =>
    intro e rest b gl fl gr fr h _
    have : rest = [] := List.eq_nil_of_length_eq_zero (by simpa using h.symm)
    subst this
    simp [picked]
  | cons c l ih =>
    intro e rest b gl fl gr fr h hi
    have h0 := hi 0 c (by simp)
    rw [mul_zero, add_zero] at h0
    have h0' : 2 * (c.1 * n + c.2) = e.length := by omega
    rw [List.foldl_cons]
    have hstep : periodicCell m n ⟨e ++ rest, b, gl, fl, gr, fr⟩ c =
        ⟨(e ++ rect2 n c) ++ rest.drop 2, b ++ rectMarks m n (2 * (c.1 * n + c.2)) c, gl ++ picked n (· == 0) [c], fl ++ picked n (· == 1) [c],
          gr ++ picked n (fun i => i + 1 == m) [c], fr ++ picked n (fun i => i + 2 == m) [c]⟩ := by
      unfold periodicCell
      simp only [index_eq, push_push]
      rw [h0, h0', set_two _ _ (by rw [← h, List.length_cons]; omega)]
      simp only [rectMarks, picked, List.flatMap_cons, List.flatMap_nil, List.append_nil, h0]
      congr 1
      rw [← List.append_nil b]
      simp only [mark_append]
      simp
    rw [hstep, ih _ _ _ _ _ _ _ (by rw [List.length_drop, ← h, List.length_cons]; omega) (by
      intro k c' hk
      rw [hi (k + 1) c' (by simpa using hk), List.length_append]
      have : (rect2 n c).length = 2 := rfl
      omega)]
    simp [picked]

theorem periodic_eq (mg n : ℕ) (len1 len2 : K) (o : K × K) :
    periodic mg n len1 len2 o =
      (⟨(loop2 (mg + 2 + 1) (n + 1)).map (gridPt (len1 / mg) (len2 / n) (o.1 + -1 / mg * len1, o.2)), (loop2 (mg + 2) n).flatMap (rect2 n),
        (loop2 (mg + 2) n).flatMap (fun c => rectMarks (mg + 2) n (2 * (c.1 * n + c.2)) c)⟩,
        picked n (· == 1) (loop2 (mg + 2) n) ++ picked n (fun i => i + 2 == mg + 2) (loop2 (mg + 2) n),
        picked n (fun i => i + 1 == mg + 2) (loop2 (mg + 2) n) ++ picked n (· == 0) (loop2 (mg + 2) n)) := by
  unfold periodic
  simp only
  have h := periodic_fold (mg + 2) n (loop2 (mg + 2) n) [] (List.replicate (2 * (mg + 2) * n) (0, 0, 0)) [] [] [] [] []
    (by rw [loop2_length, List.length_replicate]; ring) (by
      intro k c hk
      have hlt : k < (mg + 2) * n := by
        rw [← loop2_length]; exact (List.getElem?_eq_some_iff.mp hk).1
      obtain ⟨h1, h2, h3⟩ := split_index hlt
      rw [h3, loop2_get _ _ _ _ h1 h2] at hk
      simp only [Option.some.injEq] at hk
      subst hk
      simp only [List.length_nil, zero_add]
      omega)
  simp only [List.nil_append] at h
  rw [h, gridArray_eq]

end Verif.Factory
