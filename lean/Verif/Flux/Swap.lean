import Verif.Flux.Lemmas
import Verif.Flux.Algebra

set_option linter.unusedSectionVars false

namespace Verif.Flux

variable {K : Type*} [Field K] [LinearOrder K] [IsStrictOrderedRing K] {N : ℕ}

/-- The same edge seen from the other side. -/
def EdgeIn.swap (x : EdgeIn K) : EdgeIn K :=
  { ql := x.qr, qr := x.ql, zl := x.zr, zr := x.zl, hle := x.hre, hre := x.hle, hcl := x.hcr, hcr := x.hcl,
    zcl := x.zcr, zcr := x.zcl, wcl := x.wcr, wcr := x.wcl, n1 := -x.n1, n2 := -x.n2, len := x.len, wall := x.wall }

theorem zHalf_swap (x : EdgeIn K) : zHalf x.swap = zHalf x := by
  unfold zHalf EdgeIn.swap
  cases x.wall <;> simp [max_comm]

theorem edgeCompute_swap (c : Consts K) (x : EdgeIn K) (hx : HeadsOk x) :
    edgeCompute c x.swap = { flux := (edgeCompute c x).flux.neg, pgl := (edgeCompute c x).pgr,
                             pgr := (edgeCompute c x).pgl, speed := (edgeCompute c x).speed } := by
  unfold edgeCompute
  simp only [zHalf_swap]
  unfold HeadsOk at hx
  generalize hz : zHalf x = zh at *
  simp only [EdgeIn.swap]
  rw [fluxCentral_swap]
  generalize fluxCentral c x.ql x.qr (max (x.hle + x.zl - zh) 0) (max (x.hre + x.zr - zh) 0) x.hle x.hre x.n1 x.n2 zh = o
  cases hw : x.wall with
  | none => simp [Q3.neg]
  | some ep =>
    obtain ⟨elev, p⟩ := ep
    rw [hw] at hx
    simp only at hx ⊢
    simp only [max_comm x.zcr x.zcl, min_comm x.zr x.zl]
    generalize max (x.wcl - zh) 0 = a at *
    generalize max (x.wcr - zh) 0 = b at *
    by_cases h1 : elev > max x.zcl x.zcr
    · rw [if_pos h1, if_pos h1]
      by_cases h2 : a > 0 ∨ b > 0
      · rw [if_pos h2, if_pos h2.symm]
        rw [weir_swap c o.flux o.speed a b _ p (fun h => by
          rcases hx h with h' | h'
          · exfalso; subst h; rcases h2 with h2 | h2 <;> exact absurd h' (ne_of_gt h2)
          · exact h')]
        simp [Q3.neg]
      · rw [if_neg h2, if_neg (fun h => h2 h.symm)]
        simp [Q3.neg]
    · rw [if_neg h1, if_neg h1]
      simp [Q3.neg]

theorem edgeComputeMp_eq (c : Consts K) (x : EdgeIn K) :
    edgeComputeMp c x = ((edgeCompute c x).flux.neg, (edgeCompute c x).pgl, (edgeCompute c x).speed) := by
  unfold edgeComputeMp edgeCompute weirMp
  simp only
  generalize zHalf x = zh
  generalize fluxCentral c x.ql x.qr (max (x.hle + x.zl - zh) 0) (max (x.hre + x.zr - zh) 0) x.hle x.hre x.n1 x.n2 zh = o
  cases x.wall with
  | none => simp [Q3.neg]
  | some ep =>
    obtain ⟨elev, p⟩ := ep
    simp only
    generalize max (x.wcl - zh) 0 = a
    generalize max (x.wcr - zh) 0 = b
    by_cases h1 : elev > max x.zcl x.zcr
    · rw [if_pos h1, if_pos h1]
      by_cases h2 : a > 0 ∨ b > 0
      · rw [if_pos h2, if_neg (by rintro ⟨h3, h4⟩; rcases h2 with h | h <;> linarith)]
        simp [Q3.neg]
      · push Not at h2
        rw [if_pos h2, if_neg (by rintro (h | h) <;> [exact absurd h2.1 (not_le.2 h); exact absurd h2.2 (not_le.2 h)])]
        simp [Q3.neg]
    · rw [if_neg h1, if_neg h1]
      simp [Q3.neg]

theorem edgeIn_swap (D : Dom N K) (hC : Conforming D) {e m : Edge N} (h : D.nbr e = some m) :
    edgeIn D m (wallRank D m - 1) = (edgeIn D e (wallRank D e - 1)).swap := by
  obtain ⟨hm, _⟩ := hC.symm e m h
  have hn := hC.normal e m h
  have hl := hC.len e m h
  have hw := hC.wall e m h
  unfold edgeIn EdgeIn.swap
  rw [h, hm]
  simp only [EdgeIn.mk.injEq, true_and, hn, hl, hw]
  by_cases hwe : D.wall e
  · simp [hwe, hC.wallElev e m h hwe, hC.wallProps e m h hwe]
  · simp [hwe]

theorem own_swap (c : Consts K) (D : Dom N K) (hC : Conforming D) (hH : ∀ e, HeadsOk (edgeIn D e (wallRank D e - 1)))
    {e m : Edge N} (h : D.nbr e = some m) :
    own c D m = { flux := (own c D e).flux.neg, pgl := (own c D e).pgr, pgr := (own c D e).pgl,
                  speed := (own c D e).speed } := by
  unfold own
  rw [edgeIn_swap D hC h, edgeCompute_swap c _ (hH e)]

theorem finalWork_eq (c : Consts K) (D : Dom N K) (hC : Conforming D)
    (hH : ∀ e, HeadsOk (edgeIn D e (wallRank D e - 1))) (e : Edge N) : finalWork c D e = (own c D e).flux.neg := by
  unfold finalWork
  cases h : D.nbr e with
  | none => rfl
  | some m =>
    simp only
    rw [own_swap c D hC hH h]
    split_ifs <;> rfl

theorem finalPg_eq (c : Consts K) (D : Dom N K) (hC : Conforming D)
    (hH : ∀ e, HeadsOk (edgeIn D e (wallRank D e - 1))) (e : Edge N) : finalPg c D e = (own c D e).pgl := by
  unfold finalPg
  cases h : D.nbr e with
  | none => rfl
  | some m =>
    simp only
    rw [own_swap c D hC hH h]
    split_ifs <;> rfl

/-- Minimum of a family over a list, as the parallel code computes it. -/
theorem foldl_min_spec {α : Type*} (P : α → Prop) [DecidablePred P] (f : α → K) (t0 : K) (L : List α) :
    let r := L.foldl (fun t e => if P e then min t (f e) else t) t0
    r ≤ t0 ∧ (∀ e ∈ L, P e → r ≤ f e) ∧ (r = t0 ∨ ∃ e ∈ L, P e ∧ r = f e) := by
  induction L using List.reverseRecOn with
  | nil => simp
  | append_singleton L a ih =>
    obtain ⟨h1, h2, h3⟩ := ih
    simp only [List.foldl_append, List.foldl_cons, List.foldl_nil]
    generalize L.foldl (fun t e => if P e then min t (f e) else t) t0 = r at *
    by_cases ha : P a
    · rw [if_pos ha]
      refine ⟨(min_le_left _ _).trans h1, ?_, ?_⟩
      · intro e he hP
        rcases List.mem_append.1 he with he | he
        · exact (min_le_left _ _).trans (h2 e he hP)
        · rw [List.mem_singleton.1 he]; exact min_le_right _ _
      · rcases le_total r (f a) with h | h
        · rw [min_eq_left h]
          rcases h3 with h3 | ⟨e, he, h4⟩
          · exact Or.inl h3
          · exact Or.inr ⟨e, List.mem_append_left _ he, h4⟩
        · rw [min_eq_right h]
          exact Or.inr ⟨a, by simp, ha, rfl⟩
    · rw [if_neg ha]
      refine ⟨h1, ?_, ?_⟩
      · intro e he hP
        rcases List.mem_append.1 he with he | he
        · exact h2 e he hP
        · rw [List.mem_singleton.1 he] at hP; exact absurd hP ha
      · rcases h3 with h3 | ⟨e, he, h4⟩
        · exact Or.inl h3
        · exact Or.inr ⟨e, List.mem_append_left _ he, h4⟩

end Verif.Flux
