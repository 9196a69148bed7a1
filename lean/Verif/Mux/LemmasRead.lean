import Verif.Mux.Lemmas

/-! # Reading all sources -/

namespace Verif.Mux

set_option linter.unusedSectionVars false

variable {K : Type} [Field K] [LinearOrder K]

theorem lastStep_le (s : Src K) (l : List ℕ) (a n : ℤ) (ha : a ≤ n) (h : ∀ j ∈ l, lro s j ≤ n) :
    l.foldl (fun a j => if fro s j = -1 then a else max a (lro s j)) a ≤ n := by
  induction l generalizing a with
  | nil => exact ha
  | cons j l ih =>
    rw [List.foldl_cons]
    refine ih _ ?_ fun i hi => h i (List.mem_cons_of_mem _ hi)
    by_cases hf : fro s j = -1
    · rw [if_pos hf]; exact ha
    · rw [if_neg hf]; exact max_le ha (h j List.mem_cons_self)

theorem load_prefix {s : Src K} {total : ℕ} {v : ℕ → ℕ → K} (ht : 0 < total) (hw : Written s total v) (buf : List K) :
    ∃ stamp : ℕ → K, records s total stamp v (lastStep s total).toNat <+: load buf s total := by
  obtain ⟨stamp, n, hn, hp⟩ := hw.block
  refine ⟨stamp, ?_⟩
  have h1 : lastStep s total ≤ n := lastStep_le s _ 0 n (by omega) fun j hj => hn j (List.mem_range.1 hj)
  have h2 := ((records_mono s total stamp v (show (lastStep s total).toNat ≤ n by omega)).trans hp)
  have h3 := (records_le s total stamp v ht hw.steps).2
  unfold load
  exact (List.prefix_take_iff.2 ⟨h2, h3⟩).trans (List.prefix_append _ _)

theorem fill_ok {s : Src K} {total : ℕ} {v : ℕ → ℕ → K} (hw : Written s total v) (buf : List K) {ista : ℕ} (hi : ista < total)
    (nt : ℕ) (ig : ℤ) :
    fill s (load buf s total) ista total nt ig = .ok ((List.range nt).map fun k => value s v ig ista (k + 1)) := by
  unfold fill
  by_cases h : ig = -1 ∨ fro s ista = -1
  · rw [if_pos h]
    congr 1
    refine (List.eq_replicate_iff.2 ⟨by simp, ?_⟩).symm
    intro x hx
    obtain ⟨k, _, rfl⟩ := List.mem_map.1 hx
    unfold value
    rw [if_pos h]
  · rw [if_neg h]
    obtain ⟨stamp, hp⟩ := load_prefix (by omega : 0 < total) hw buf
    have hl := (lastStep_spec s (List.range total) 0).2 ista (List.mem_range.2 hi) (fun e => h (Or.inr e))
    have hl : lro s ista ≤ lastStep s total := hl
    have := fillLoop_ok hi (lastStep s total).toNat (by omega) hp nt 0
    have e0 : (records s total stamp v 0).length = 0 := rfl
    rw [e0] at this
    rw [this, ← List.range_eq_range']
    congr 1
    refine List.map_congr_left fun k _ => ?_
    unfold value
    rw [if_neg h]
    push_cast
    rfl

/-- One source into one value. -/
def mix (a x w : K) : K := if isdata a && isdata x then a + x * w else 99

theorem add_range (w : K) (f g : ℕ → K) (nt : ℕ) :
    add w ((List.range nt).map f) ((List.range nt).map g) = (List.range nt).map fun k => mix (f k) (g k) w := by
  unfold add mix nodata
  rw [List.zipWith_map]
  simp [List.zipWith_self]

theorem addAll_ok {s : Src K} {total : ℕ} {v : ℕ → ℕ → K} (hw : Written s total v) (w : K) (buf : List K) (nt : ℕ) (isFirst : Bool)
    (heads : List (Head K)) (hh : heads.length = total) (sel : List ℕ) (hsel : ∀ i ∈ sel, i < total) (f : ℕ → ℕ → K) (a b : ℕ → ℤ) :
    addAll s w (load buf s total) total nt isFirst heads (sel.map fun i => (i, ⟨(List.range nt).map (f i), a i, b i⟩)) =
      .ok (sel.map fun i => (i, ⟨(List.range nt).map fun k => mix (f i k) (value s v ((heads[i]?.map Head.ig).getD 0) i (k + 1)) w,
        if isFirst then fro s i else min (a i) (fro s i), if isFirst then lro s i else max (b i) (lro s i)⟩)) := by
  induction sel with
  | nil => rfl
  | cons i sel ih =>
    have hi := hsel i List.mem_cons_self
    have ih := ih fun j hj => hsel j (List.mem_cons_of_mem _ hj)
    obtain ⟨h, hh'⟩ : ∃ h, heads[i]? = some h := ⟨_, List.getElem?_eq_getElem (by omega)⟩
    rw [List.map_cons, List.map_cons]
    unfold addAll
    rw [hh']
    simp only
    unfold addSource
    rw [fill_ok hw buf hi nt h.ig]
    simp only
    rw [ih, add_range]
    rfl

/-- First and last steps over all sources. -/
def firsts (a : ℤ) (l : List (Src K × K)) (i : ℕ) : ℤ := l.foldl (fun a x => min a (fro x.1 i)) a

def lasts (a : ℤ) (l : List (Src K × K)) (i : ℕ) : ℤ := l.foldl (fun a x => max a (lro x.1 i)) a

def mixed (v : Src K → ℕ → ℕ → K) (heads : List (Head K)) (l : List (Src K × K)) (a : K) (i t : ℕ) : K :=
  l.foldl (fun a x => mix a (value x.1 (v x.1) ((heads[i]?.map Head.ig).getD 0) i t) x.2) a

theorem sources_rest {total : ℕ} {v : Src K → ℕ → ℕ → K} (nt : ℕ) (heads : List (Head K)) (hh : heads.length = total)
    (l : List (Src K × K)) (hw : ∀ x ∈ l, Written x.1 total (v x.1)) (sel : List ℕ) (hsel : ∀ i ∈ sel, i < total) (buf : List K)
    (f : ℕ → ℕ → K) (a b : ℕ → ℤ) :
    sources total nt heads l false buf (sel.map fun i => (i, ⟨(List.range nt).map (f i), a i, b i⟩)) =
      .ok (sel.map fun i => (i, ⟨(List.range nt).map fun k => mixed v heads l (f i k) i (k + 1), firsts (a i) l i, lasts (b i) l i⟩)) := by
  induction l generalizing buf f a b with
  | nil => rfl
  | cons x l ih =>
    unfold sources
    rw [addAll_ok (hw x List.mem_cons_self) x.2 buf nt false heads hh sel hsel f a b]
    simp only
    exact ih (fun y hy => hw y (List.mem_cons_of_mem _ hy)) _ _ _ _

theorem sources_ok {total : ℕ} {v : Src K → ℕ → ℕ → K} (nt : ℕ) (heads : List (Head K)) (hh : heads.length = total)
    (x : Src K × K) (l : List (Src K × K)) (hw : ∀ y ∈ x :: l, Written y.1 total (v y.1)) (sel : List ℕ) (hsel : ∀ i ∈ sel, i < total)
    (buf : List K) :
    sources total nt heads (x :: l) true buf (sel.map fun i => (i, ⟨List.replicate nt 0, 0, 0⟩)) =
      .ok (sel.map fun i => (i, ⟨(List.range nt).map fun k => mixed v heads (x :: l) 0 i (k + 1), firsts (fro x.1 i) l i,
        lasts (lro x.1 i) l i⟩)) := by
  have e : List.replicate nt (0 : K) = (List.range nt).map fun _ => 0 := by simp
  unfold sources
  rw [e, addAll_ok (hw x List.mem_cons_self) x.2 buf nt true heads hh sel hsel (fun _ _ => 0) (fun _ => 0) (fun _ => 0)]
  simp only
  exact sources_rest nt heads hh l (fun y hy => hw y (List.mem_cons_of_mem _ hy)) sel hsel _ _ _ _

theorem headers_ok {srcs : List (Src K)} {total nt : ℕ} {dt : K} {v : Src K → ℕ → ℕ → K} (h : Ready srcs total nt dt v) :
    ∃ nmax, headers srcs = .ok (total, nt, dt, nmax) := by
  obtain ⟨s0, rest, rfl⟩ := List.exists_cons_of_ne_nil h.some.1
  have h0 := h.heads s0 List.mem_cons_self
  obtain ⟨h0', hs, hhs⟩ : ∃ a l, s0.heads = a :: l := by
    cases hc : s0.heads with
    | nil => rw [hc] at h0; simp at h0; have := h.some.2; omega
    | cons a l => exact ⟨a, l, rfl⟩
  have hrep : ∀ s ∈ s0 :: rest, s.heads.map (fun h => (h.dt, h.nt)) = List.replicate total (dt, nt) := by
    intro s hsm
    refine List.eq_replicate_iff.2 ⟨by rw [List.length_map, (h.heads s hsm).1], ?_⟩
    intro y hy
    obtain ⟨z, hz, rfl⟩ := List.mem_map.1 hy
    rw [((h.heads s hsm).2 z hz).1, ((h.heads s hsm).2 z hz).2]
  have hz := h0.2 h0' (hhs ▸ List.mem_cons_self)
  refine ⟨((s0 :: rest).map fun s => (numData s total).toNat).foldl max 0, ?_⟩
  unfold headers
  simp only [hhs]
  rw [← hhs, if_neg, if_neg, if_neg, h0.1, hz.1, hz.2]
  · simp only [not_not]
    rw [List.all_eq_true]
    intro z hz'
    rw [(h0.2 z hz').2, hz.2]
    simp
  · rw [h0.1]
    simp only [Bool.not_eq_true, List.any_eq_false, decide_eq_true_eq, not_lt]
    intro s hsm
    exact (records_le s total (fun _ => 0) (v s) h.some.2 (h.written s hsm).steps).1
  · simp only [not_not]
    rw [List.all_eq_true]
    intro s hsm
    rw [hrep s hsm, hrep s0 List.mem_cons_self]
    exact beq_self_eq_true _

theorem readMux2_ok {s0 : Src K} {rest : List (Src K)} {total nt : ℕ} {dt : K} {v : Src K → ℕ → ℕ → K}
    (h : Ready (s0 :: rest) total nt dt v) (w0 : K) (ws : List K) (perm : List ℕ) (hp : ∀ i ∈ perm, i < total) :
    readMux2 (s0 :: rest) (w0 :: ws) perm = .ok (nt, dt, (if perm.isEmpty then List.range total else perm).map fun i =>
      (i, ⟨(List.range nt).map fun k => mixed v s0.heads ((s0, w0) :: rest.zip ws) 0 i (k + 1), firsts (fro s0 i) (rest.zip ws) i,
        lasts (lro s0 i) (rest.zip ws) i⟩)) := by
  obtain ⟨nmax, hh⟩ := headers_ok h
  unfold readMux2
  rw [hh]
  simp only
  have hsel : ∀ i ∈ (if perm.isEmpty then List.range total else perm), i < total := by
    intro i hi
    by_cases hc : perm.isEmpty = true
    · rw [if_pos hc] at hi; exact List.mem_range.1 hi
    · rw [if_neg hc] at hi; exact hp i hi
  have := sources_ok (v := v) nt s0.heads (h.heads s0 List.mem_cons_self).1 (s0, w0) (rest.zip ws) (by
    intro y hy
    rcases List.mem_cons.1 hy with rfl | hy
    · exact h.written s0 List.mem_cons_self
    · exact h.written y.1 (List.mem_cons_of_mem _ (List.of_mem_zip hy).1)) _ hsel (List.replicate nmax 0)
  simp only [List.head?_cons, Option.map_some, Option.getD_some, List.zip_cons_cons]
  rw [this]

end Verif.Mux
