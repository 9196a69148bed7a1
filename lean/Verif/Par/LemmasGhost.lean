import Verif.Par.LemmasDiv

/-!
# Lemmas: the ghost triangles
-/

namespace Verif.Par

open Verif.Mesh (Tri BDict MeshData MeshErr buildMesh DirEdge Conforming Across)

theorem mem_fullIds (lo up x : ℕ) : x ∈ fullIds lo up ↔ lo ≤ x ∧ x < up := by
  unfold fullIds
  rw [List.mem_range'_1]
  omega

theorem fullIds_sorted (lo up : ℕ) : (fullIds lo up).Pairwise (· < ·) := List.pairwise_lt_range'

theorem fullIds_length (lo up : ℕ) : (fullIds lo up).length = up - lo := by simp [fullIds]

theorem outside_iff (lo up : ℕ) (n : ℤ) : outside lo up n = true ↔ n < lo ∨ (up : ℤ) ≤ n := by
  simp [outside]

theorem mem_around (nb : ℕ × ℕ → ℤ) (lo up : ℕ) (l : List ℕ) (x : ℕ) :
    x ∈ around nb lo up l ↔ (x < lo ∨ up ≤ x) ∧ ∃ k ∈ l, ∃ e < 3, nb (k, e) = (x : ℤ) := by
  unfold around
  simp only [List.mem_map, List.mem_filter, mem_unique, List.mem_flatMap, outside_iff, decide_eq_true_eq]
  constructor
  · rintro ⟨a, ⟨⟨⟨k, hk, ha⟩, h0⟩, ho⟩, rfl⟩
    refine ⟨by omega, k, hk, ?_⟩
    have hcast : ((a.toNat : ℕ) : ℤ) = a := by omega
    rw [hcast]
    simp only [List.mem_cons, List.not_mem_nil, or_false] at ha
    rcases ha with rfl | rfl | rfl
    · exact ⟨0, by omega, rfl⟩
    · exact ⟨1, by omega, rfl⟩
    · exact ⟨2, by omega, rfl⟩
  · rintro ⟨ho, k, hk, e, he, hx⟩
    refine ⟨(x : ℤ), ⟨⟨⟨k, hk, ?_⟩, by omega⟩, by omega⟩, by omega⟩
    rw [← hx]
    have : e = 0 ∨ e = 1 ∨ e = 2 := by omega
    rcases this with rfl | rfl | rfl <;> simp

theorem around_sorted (nb : ℕ × ℕ → ℤ) (lo up : ℕ) (l : List ℕ) : (around nb lo up l).Pairwise (· < ·) := by
  unfold around
  rw [List.pairwise_map]
  have h := (((unique_sorted (l.flatMap (fun k => [nb (k, 0), nb (k, 1), nb (k, 2)]))).filter
    (fun n => decide (0 ≤ n))).filter (outside lo up))
  refine List.Pairwise.imp_of_mem ?_ h
  intro a b ha hb hab
  simp only [List.mem_filter, decide_eq_true_eq] at ha hb
  omega

/-- Reached from the own range by at most `n` steps of the neighbour array. -/
inductive Reach (nb : ℕ × ℕ → ℤ) (lo up : ℕ) : ℕ → ℕ → Prop
  | start {t : ℕ} : lo ≤ t → t < up → Reach nb lo up 0 t
  | stay {n t : ℕ} : Reach nb lo up n t → Reach nb lo up (n + 1) t
  | step {n t e u : ℕ} : Reach nb lo up n t → e < 3 → nb (t, e) = (u : ℤ) → Reach nb lo up (n + 1) u

theorem Reach.mono {nb : ℕ × ℕ → ℤ} {lo up n k t : ℕ} (h : Reach nb lo up n t) (hk : n ≤ k) : Reach nb lo up k t := by
  induction hk with
  | refl => exact h
  | step _ ih => exact .stay ih

theorem foldl_setdiff_mem (L : List (List ℕ)) : ∀ (a : List ℕ) (x : ℕ),
    x ∈ L.foldl (fun n l => setdiff n l) a ↔ x ∈ a ∧ ∀ l ∈ L, x ∉ l := by
  induction L with
  | nil => simp
  | cons b L ih =>
    intro a x
    rw [List.foldl_cons, ih, mem_setdiff]
    simp only [List.mem_cons, forall_eq_or_imp]
    tauto

theorem foldl_union_mem (L : List (List ℕ)) : ∀ (a : List ℕ) (x : ℕ),
    x ∈ L.foldl union a ↔ x ∈ a ∨ ∃ l ∈ L, x ∈ l := by
  induction L with
  | nil => simp
  | cons b L ih =>
    intro a x
    rw [List.foldl_cons, ih, mem_union]
    simp only [List.mem_cons, exists_eq_or_imp]
    tauto

theorem foldl_union_sorted (L : List (List ℕ)) : ∀ (a : List ℕ), a.Pairwise (· < ·) → (L.foldl union a).Pairwise (· < ·) := by
  induction L with
  | nil => exact fun a h => h
  | cons b L ih => exact fun a _ => ih _ (unique_sorted _)

theorem layers_ne_nil (nb : ℕ × ℕ → ℤ) (lo up i : ℕ) : ∃ a L, layers nb lo up i = a :: L := by
  cases i with
  | zero => exact ⟨_, _, rfl⟩
  | succ i => exact ⟨_, _, rfl⟩

theorem layers_succ (nb : ℕ × ℕ → ℤ) (lo up i : ℕ) : layers nb lo up (i + 1) =
    (layers nb lo up i).reverse.foldl (fun n l => setdiff n l) (around nb lo up ((layers nb lo up i).headD [])) ::
      layers nb lo up i := rfl

theorem mem_layers (nb : ℕ × ℕ → ℤ) (lo up : ℕ) : ∀ (i x : ℕ),
    (∃ l ∈ layers nb lo up i, x ∈ l) ↔ (x < lo ∨ up ≤ x) ∧ Reach nb lo up (i + 1) x := by
  intro i
  induction i using Nat.strong_induction_on with
  | _ i ih =>
  cases i with
  | zero =>
    intro x
    show (∃ l ∈ [around nb lo up (fullIds lo up)], x ∈ l) ↔ _
    simp only [List.mem_singleton, exists_eq_left, mem_around, mem_fullIds]
    constructor
    · rintro ⟨h, k, ⟨h1, h2⟩, e, he, hx⟩
      exact ⟨h, .step (.start h1 h2) he hx⟩
    · rintro ⟨h, hr⟩
      refine ⟨h, ?_⟩
      cases hr with
      | stay hr => cases hr with | start h1 h2 => omega
      | step hr he hx => cases hr with | start h1 h2 => exact ⟨_, ⟨h1, h2⟩, _, he, hx⟩
  | succ i =>
    intro x
    have ihi := ih i (Nat.lt_succ_self i)
    rw [layers_succ]
    simp only [List.mem_cons, exists_eq_or_imp]
    rw [foldl_setdiff_mem, mem_around, ihi x]
    simp only [List.mem_reverse]
    obtain ⟨a, L, hL⟩ := layers_ne_nil nb lo up i
    have hhead : (layers nb lo up i).headD [] = a := by rw [hL]; rfl
    rw [hhead]
    have hmema : a ∈ layers nb lo up i := by rw [hL]; simp
    constructor
    · rintro (⟨⟨ho, k, hk, e, he, hx⟩, _⟩ | ⟨ho, hr⟩)
      · exact ⟨ho, .step ((ihi k).mp ⟨a, hmema, hk⟩).2 he hx⟩
      · exact ⟨ho, .stay hr⟩
    · rintro ⟨ho, hr⟩
      by_cases hold : Reach nb lo up (i + 1) x
      · exact Or.inr ⟨ho, hold⟩
      · left
        have hnew : ∀ l ∈ layers nb lo up i, x ∉ l := by
          intro l hl hx
          exact hold ((ihi x).mp ⟨l, hl, hx⟩).2
        refine ⟨⟨ho, ?_⟩, hnew⟩
        cases hr with
        | stay hr => exact absurd hr hold
        | @step _ t e _ hr he hx =>
          by_cases hown : lo ≤ t ∧ t < up
          · exact absurd (((Reach.start hown.1 hown.2).step he hx).mono (by omega)) hold
          · obtain ⟨l, hl, ht⟩ := (ihi t).mpr ⟨by omega, hr⟩
            by_cases hla : t ∈ a
            · exact ⟨t, hla, e, he, hx⟩
            · exfalso
              rw [hL] at hl
              rcases List.mem_cons.mp hl with rfl | hl
              · exact hla ht
              · cases i with
                | zero =>
                  have : L = [] := by
                    have h0 : layers nb lo up 0 = [around nb lo up (fullIds lo up)] := rfl
                    rw [h0] at hL
                    exact (List.cons.inj hL).2.symm
                  subst this
                  cases hl
                | succ i =>
                  have hLi : L = layers nb lo up i := by
                    rw [layers_succ] at hL
                    exact (List.cons.inj hL).2.symm
                  rw [hLi] at hl
                  have := ((ih i (by omega) t).mp ⟨l, hl, ht⟩).2
                  exact hold ((this.step he hx).mono (by omega))

theorem layers_last_sorted (nb : ℕ × ℕ → ℤ) (lo up i : ℕ) :
    ∃ L, (layers nb lo up i).reverse = around nb lo up (fullIds lo up) :: L := by
  induction i with
  | zero => exact ⟨[], rfl⟩
  | succ i ih =>
    obtain ⟨L, hL⟩ := ih
    rw [layers_succ, List.reverse_cons, hL]
    exact ⟨_, rfl⟩

theorem ghostIds_sorted (nb : ℕ × ℕ → ℤ) (lo up width : ℕ) : (ghostIds nb lo up width).Pairwise (· < ·) := by
  unfold ghostIds
  obtain ⟨L, hL⟩ := layers_last_sorted nb lo up (width - 1)
  simp only [hL]
  exact foldl_union_sorted _ _ (around_sorted _ _ _ _)

theorem mem_ghostIds (nb : ℕ × ℕ → ℤ) (lo up width x : ℕ) :
    x ∈ ghostIds nb lo up width ↔ (x < lo ∨ up ≤ x) ∧ Reach nb lo up (max width 1) x := by
  have hw : max width 1 = width - 1 + 1 := by omega
  rw [hw, ← mem_layers]
  unfold ghostIds
  obtain ⟨L, hL⟩ := layers_last_sorted nb lo up (width - 1)
  simp only [hL]
  rw [foldl_union_mem]
  have : ∀ l, l ∈ layers nb lo up (width - 1) ↔ l ∈ around nb lo up (fullIds lo up) :: L := by
    intro l; rw [← hL, List.mem_reverse]
  simp only [this, List.headD_cons, List.tail_cons, List.mem_cons, exists_eq_or_imp]

section

variable {N : ℕ} {epart : List ℕ} {tris : List Tri} {user : BDict} {m : MeshData} {d : Division} {m' : MeshData}

/-- Edges carrying a tag in the serial mesh. -/
def Tagged (m : MeshData) (t e : ℕ) : Prop := (m.boundary.lookup (t, e)).isSome

theorem across_edge {tris : List Tri} {t e u j : ℕ} (h : Across tris t e u j) :
    t < tris.length ∧ u < tris.length ∧ e < 3 ∧ j < 3 := by
  obtain ⟨a, b, ⟨n0, n1, n2, h1, h2⟩, ⟨k0, k1, k2, h3, h4⟩⟩ := h
  have := (List.getElem?_eq_some_iff.mp h1).1
  have := (List.getElem?_eq_some_iff.mp h3).1
  omega

theorem Within.lt {tris : List Tri} {cut : ℕ → ℕ → Prop} {S : ℕ → Prop} {n t : ℕ} (h : Within tris cut S n t) :
    t < tris.length := by
  induction h with
  | start h _ => exact h
  | stay _ ih => exact ih
  | step _ h _ _ => exact (across_edge h).2.1

theorem Setup.reach (s : Setup N epart tris user m d m') (p n x : ℕ) (hx : x < epart.length) :
    Reach m'.enum.neighbours (procSum d.tpp p) (procSum d.tpp (p + 1)) n x ↔
      Within tris (Tagged m) (fun t => epart.getD t 0 = p) n (old epart x) := by
  rw [(divide_ok s.hd).1]
  constructor
  · intro h
    induction h with
    | start h1 h2 =>
      refine .start (by rw [← s.hlen]; exact old_lt epart _ hx) ?_
      exact (old_range epart _ p hx).mpr ⟨h1, h2⟩
    | stay _ ih => exact .stay (ih hx)
    | step _ he hn ih =>
      obtain ⟨h1, h2, ⟨j, hj⟩, h3⟩ := (s.neighbours _ _ _).mp hn
      exact .step (ih h1) hj (by simp [Tagged, h3])
  · intro h
    generalize hy : old epart x = y at h
    induction h generalizing x with
    | start h1 h2 =>
      subst hy
      obtain ⟨h3, h4⟩ := (old_range epart _ p hx).mp h2
      exact .start h3 h4
    | stay _ ih => exact .stay (ih x hx hy)
    | @step n t e u j hr ha ht ih =>
      obtain ⟨t', ht', rfl⟩ := old_surj epart t (by rw [s.hlen]; exact (across_edge ha).1)
      subst hy
      refine .step (ih t' ht' rfl) (across_edge ha).2.2.1 ((s.neighbours _ _ _).mpr ⟨ht', hx, ⟨j, ha⟩, ?_⟩)
      unfold Tagged at ht
      rwa [Option.not_isSome_iff_eq_none] at ht

theorem Reach.lt_length (s : Setup N epart tris user m d m') {p n x : ℕ}
    (h : Reach m'.enum.neighbours (procSum d.tpp p) (procSum d.tpp (p + 1)) n x) : x < epart.length := by
  induction h with
  | start _ h2 =>
    rw [(divide_ok s.hd).1] at h2
    have := procSum_le epart (p + 1)
    omega
  | stay _ ih => exact ih
  | step _ _ hn _ => exact ((s.neighbours _ _ _).mp hn).2.1

theorem Setup.ghosts (s : Setup N epart tris user m d m') (width p x : ℕ) :
    x ∈ ghostsOf d m' width p ↔ x < epart.length ∧ epart.getD (old epart x) 0 ≠ p ∧
      Within tris (Tagged m) (fun t => epart.getD t 0 = p) (max width 1) (old epart x) := by
  unfold ghostsOf
  rw [mem_ghostIds]
  constructor
  · rintro ⟨ho, hr⟩
    have hx := Reach.lt_length s hr
    refine ⟨hx, ?_, (s.reach p _ x hx).mp hr⟩
    intro he
    have := (old_range epart x p hx).mp he
    rw [(divide_ok s.hd).1] at ho
    omega
  · rintro ⟨hx, hne, hw⟩
    refine ⟨?_, (s.reach p _ x hx).mpr hw⟩
    have : ¬ (procSum (bincount epart) p ≤ x ∧ x < procSum (bincount epart) (p + 1)) := fun h => hne ((old_range epart x p hx).mpr h)
    rw [(divide_ok s.hd).1]
    omega

end

end Verif.Par
