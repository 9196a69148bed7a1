import Verif.Extrap.PropsTwo
import Verif.Extrap.Sample

/-!
# C48: the OpenMP distribution step gives the result of the serial one
-/

set_option linter.unusedSectionVars false

namespace Verif.Extrap

open Verif.Flux (Q3 Edge Dom)

variable {K : Type*} [Field K] [LinearOrder K] [IsStrictOrderedRing K] {N : ℕ}

theorem protectMp_agree (minH : K) (hm : 0 < minH) (area : Fin N → K) (c : Cent N K) :
    (protectMp minH area c).1.stage = (protect minH area c).1.stage ∧
    (protectMp minH area c).1.bed = (protect minH area c).1.bed ∧
    (protectMp minH area c).1.xm = (protect minH area c).1.xm ∧
    ∀ k, minH ≤ (protect minH area c).1.stage k - (protect minH area c).1.bed k →
      (protectMp minH area c).1.ym k = (protect minH area c).1.ym k := by
  obtain ⟨h1, h2, _⟩ := C15_openmp_stage minH area c
  refine ⟨h1, rfl, h2, fun k hk => ?_⟩
  simp only [protectMp, protect, protectCellMp, protectCell] at hk ⊢
  split_ifs at hk ⊢ with a b d
  · simp only at hk; rw [sub_self] at hk; linarith
  · simp only at hk; linarith
  · simp only at hk; linarith
  · rfl

/-- What the extrapolation on `k` reads of a quantity. -/
theorem extrap_congr (G : Geo N K) (q q' : Fin N → K) (beta betaW : K) (k : Fin N) (i : Fin 3)
    (hk : q k = q' k) (ht : nb G k ≤ 1 → 0 < beta → ∀ i, q (surr G (k, i)) = q' (surr G (k, i)))
    (hc : nb G k = 2 → ∀ j, inner G k = some j → q j = q' j) : extrap G q beta betaW k i = extrap G q' beta betaW k i := by
  unfold extrap
  split_ifs with h1 h2 h3
  · exact hk
  · exact hk
  · unfold extrapTypical
    split_ifs with h4
    · have hs := ht h2 h4
      have hj : jumps G q k = jumps G q' k := by
        funext i
        unfold jumps
        simp only [hs]
      simp only [hs, hk, hj]
    · exact hk
  · have h2' : nb G k = 2 := by have := nb_le G k; omega
    cases hin : inner G k with
    | none => exact hk
    | some j =>
      simp only [extrapCorner, hk, hc h2' j hin]

theorem extrapMp_eq (G : Geo N K) (q : Fin N → K) (beta betaW : K) (k : Fin N) (i : Fin 3)
    (ha : nb G k ≤ 1 → 0 < area2 G k) : extrapMp G q beta betaW k i = extrap G q beta betaW k i := by
  unfold extrapMp extrap
  split_ifs with h1 h2 h3
  · rfl
  · exact absurd (ha h2) (not_lt.2 h3)
  · rfl
  · rfl

/-- The centroids around every triangle with at most one boundary edge are in anticlockwise order (strictly), as on every
mesh of non-degenerate triangles of comparable size. -/
def Oriented (G : Geo N K) : Prop :=
  ∀ k, boundaryEdges G.nbr k ≤ 1 →
    (G.cx (surr G (k, 1)) - G.cx (surr G (k, 0))) * (G.cy (surr G (k, 2)) - G.cy (surr G (k, 0))) -
      (G.cy (surr G (k, 1)) - G.cy (surr G (k, 0))) * (G.cx (surr G (k, 2)) - G.cx (surr G (k, 0))) > 0

/-- The velocity assigned to a triangle: momentum over depth where deeper than the minimum height. -/
def velocity (minH : K) (c : Cent N K) (m : Fin N → K) (k : Fin N) : K :=
  if minH < c.stage k - c.bed k then m k / (c.stage k - c.bed k) else 0

/-- C48: with velocity extrapolation and limiter parameters that vanish at dry triangles, the OpenMP routine gives the serial
result for every order in which threads run. (Velocities of size `1e-100` next to dry triangles with two boundary edges are
excluded.) -/
theorem C48_openmp_agrees_partial (G : Geo N K) (p : Params K) (area : Fin N → K) (c : Cent N K)
    (seen : Fin N → Fin N → Bool) (hs : ∀ k, seen k k = true) (hm : 0 < p.minH) (hv : p.vel = true)
    (hu0 : p.betaUhDry = 0) (hv0 : p.betaVhDry = 0) (hS : Verif.Flux.Symmetric G.nbr) (hO : Oriented G)
    (hC : ∀ k i m, boundaryEdges G.nbr k = 2 → G.nbr (k, i) = some m → p.minH ≤ c.stage k - c.bed k ∨
      (Resolved G k m.1 (velocity p.minH c c.xm m.1) ∧ Resolved G k m.1 (velocity p.minH c c.ym m.1))) :
    distributeMp G p area c seen = distribute G p area c := by
  obtain ⟨e1, e2, e3, e4⟩ := protectMp_agree p.minH hm area c
  unfold distributeMp distribute
  generalize hcm : (protectMp p.minH area c).1 = cm at *
  have hvx : ∀ mm : Fin N → K, ∀ mm' : Fin N → K, (∀ k, p.minH ≤ c.stage k - c.bed k → mm' k = mm k) → ∀ k,
      (if height p (protect p.minH area c).1 k > p.minH then mm' k * (1 / height p (protect p.minH area c).1 k) else 0) =
      velocity p.minH c mm k := by
    intro mm mm' hmm k
    obtain ⟨hb, _, hd1, hd2⟩ := C15_depth p.minH hm.le area c k
    unfold velocity height
    rw [if_pos hv, hb]
    rcases le_total (c.bed k) (c.stage k) with h | h
    · rw [hd1 h, max_eq_left (by linarith)]
      split_ifs with h2
      · rw [hmm k h2.le, ← div_eq_mul_one_div]
      · rfl
    · rw [hd2 h, sub_self, max_self, if_neg (not_lt.2 hm.le), if_neg (not_lt.2 (by linarith))]
  have hvelx := hvx c.xm (protect p.minH area c).1.xm (fun k hk => ((C15_momentum p.minH area c k).2 hk).1)
  have hvely := hvx c.ym (protect p.minH area c).1.ym (fun k hk => ((C15_momentum p.minH area c k).2 hk).2)
  have hst : ∀ k, p.minH ≤ c.stage k - c.bed k → p.minH ≤ (protect p.minH area c).1.stage k - (protect p.minH area c).1.bed k := by
    intro k hk
    rw [(C15_depth p.minH hm.le area c k).2.2.1 (by linarith)]
    exact hk
  generalize hcs : (protect p.minH area c).1 = cs at *
  have hh : heightMp cm = height p cs := by
    funext k
    simp [heightMp, height, hv, e1, e2]
  have hp : ({ p with vel := true } : Params K) = p := by rw [← hv]
  have hheq : height p cm = height p cs := by
    funext k
    simp [height, hv, e1, e2]
  have hf : hfactor G p cm = hfactor G p cs := by
    funext k
    unfold hfactor
    simp only [hheq]
  have hiso : ∀ k, isolatedMp G p cm k = isolated G p cs k := by
    intro k
    simp only [isolatedMp, isolated, hh]
  have hdeep : ∀ k, p.minH < height p cs k → p.minH ≤ cs.stage k - cs.bed k := by
    intro k hk
    simp only [height, hv, if_true] at hk
    rcases lt_max_iff.1 hk with h | h
    · exact h.le
    · exact absurd h (not_lt.2 hm.le)
  have hxm : ∀ k, firstMp p cm cm.xm k = (if height p cs k > p.minH then cs.xm k * (1 / height p cs k) else 0) := by
    intro k
    simp only [firstMp, hv, if_true, hh, e3]
    split_ifs with a b
    · linarith
    · rfl
    · rfl
    · linarith
  have hym : ∀ k, firstMp p cm cm.ym k = (if height p cs k > p.minH then cs.ym k * (1 / height p cs k) else 0) := by
    intro k
    simp only [firstMp, hv, if_true, hh]
    split_ifs with a b
    · linarith
    · rw [e4 k (hdeep k a)]
    · rfl
    · linarith
  have harea : ∀ k, nb G k ≤ 1 → 0 < area2 G k := by
    intro k hk
    rw [nb_eq] at hk
    have := hO k hk
    unfold area2
    simp only
    linarith
  -- a triangle with a wet neighbour is not isolated
  have hnot : ∀ k i m, G.nbr (k, i) = some m → m.1 ≠ k → p.minH ≤ height p cs k → isolated G p cs m.1 = false := by
    intro k i m hn hne hk
    by_contra hcon
    rw [Bool.not_eq_false] at hcon
    unfold isolated at hcon
    rw [List.all_eq_true] at hcon
    have h1 := hcon m.2 (List.mem_finRange _)
    have h2 : surr G (m.1, m.2) = k := by
      unfold surr
      rw [show ((m.1, m.2) : Edge N) = m from rfl, (hS _ _ hn).1]
    rw [h2, Bool.or_eq_true, decide_eq_true_iff, decide_eq_true_iff] at h1
    rcases h1 with h1 | h1
    · linarith
    · exact hne h1.symm
  have hsurr : ∀ k i, surr G (k, i) = k ∨ ∃ m, G.nbr (k, i) = some m ∧ m.1 = surr G (k, i) := by
    intro k i
    unfold surr
    cases G.nbr (k, i) with
    | none => exact Or.inl rfl
    | some m => exact Or.inr ⟨m, rfl, rfl⟩
  have hcorner : ∀ k i m, nb G k = 2 → G.nbr (k, i) = some m → p.minH ≤ height p cs k ∨
      (Resolved G k m.1 (velocity p.minH c c.xm m.1) ∧ Resolved G k m.1 (velocity p.minH c c.ym m.1)) := by
    intro k i m hk hn
    rw [nb_eq] at hk
    rcases hC k i m hk hn with h | h
    · left
      simp only [height, hv, if_true]
      exact le_max_of_le_left (hst k h)
    · exact Or.inr h
  have hread : ∀ (mm mp m0 : Fin N → K) (bdry b : K), bdry = 0 →
      (∀ k, (if height p cs k > p.minH then mm k * (1 / height p cs k) else 0) = velocity p.minH c m0 k) →
      (∀ k i m, nb G k = 2 → G.nbr (k, i) = some m → p.minH ≤ height p cs k ∨ Resolved G k m.1 (velocity p.minH c m0 m.1)) →
      (∀ k, firstMp p cm mp k = (if height p cs k > p.minH then mm k * (1 / height p cs k) else 0)) → ∀ (e : Edge N),
      extrapMp G (fun j => if isolatedMp G p cm j && seen e.1 j then 0 else firstMp p cm mp j)
        (betaTmp bdry b (hfactor G p cs e.1)) p.betaW e.1 e.2 =
      extrap G (carried G p cs mm) (betaTmp bdry b (hfactor G p cs e.1)) p.betaW e.1 e.2 := by
    intro mm mp m0 bdry b hb0 hvel hcor hfm e
    obtain ⟨k, i⟩ := e
    rw [extrapMp_eq G _ _ _ _ _ (harea k)]
    have hsee : ∀ j, (seen k j = true ∨ isolated G p cs j = false) →
        (if isolatedMp G p cm j && seen k j then 0 else firstMp p cm mp j) = carried G p cs mm j := by
      intro j hj
      unfold carried
      rw [hiso, hfm, hv]
      rcases hj with h | h
      · rw [h, Bool.and_true]; simp
      · rw [h, Bool.false_and]; simp
    by_cases hdryc : nb G k = 2 ∧ height p cs k < p.minH
    · -- a dry triangle with two boundary edges: both sides are zero
      obtain ⟨hn2, hdk⟩ := hdryc
      have hck : carried G p cs mm k = 0 := by
        unfold carried
        simp only [hv, if_true, gt_iff_lt, not_lt.2 hdk.le, if_false, ite_self]
      have hres : ∀ i m, G.nbr (k, i) = some m → ∀ x, (x = 0 ∨ x = velocity p.minH c m0 m.1) → Resolved G k m.1 x := by
        intro i m hn x hx
        rcases hx with rfl | rfl
        · exact Or.inl rfl
        · rcases hcor k i m hn2 hn with h | h
          · linarith
          · exact h
      have hcar : ∀ j, carried G p cs mm j = 0 ∨ carried G p cs mm j = velocity p.minH c m0 j := by
        intro j
        unfold carried
        rw [if_pos hv, hvel]
        split_ifs
        · exact Or.inl rfl
        · exact Or.inr rfl
      have hvw : ∀ j, (if isolatedMp G p cm j && seen k j then 0 else firstMp p cm mp j) = 0 ∨
          (if isolatedMp G p cm j && seen k j then 0 else firstMp p cm mp j) = velocity p.minH c m0 j := by
        intro j
        rw [hfm, hvel]
        split_ifs
        · exact Or.inl rfl
        · exact Or.inr rfl
      rw [corner_eq G p (carried G p cs mm) _ (k, i) hn2 (fun i' m hn => by
          rw [hck, sub_zero]; exact hres i' m hn _ (hcar m.1)),
        corner_eq G p (fun j => if isolatedMp G p cm j && seen k j then 0 else firstMp p cm mp j) _ (k, i) hn2
          (fun i' m hn => by
            simp only
            rw [hsee k (Or.inl (hs k)), hck, sub_zero]; exact hres i' m hn _ (hvw m.1))]
      exact hsee k (Or.inl (hs k))
    have hwetc : nb G k = 2 → p.minH ≤ height p cs k := fun h => not_lt.1 (fun h' => hdryc ⟨h, h'⟩)
    refine extrap_congr G _ _ _ _ _ _ ?_ ?_ ?_
    · exact hsee k (Or.inl (hs k))
    · intro _ hb i
      rw [hb0] at hb
      have hpos : 0 < hfactor G p cs k := by
        rcases (hfactor_range G p cs k hm).1.lt_or_eq with h | h
        · exact h
        · rw [← h] at hb; simp [betaTmp] at hb
      have hw := (hfactor_pos G p cs k hm hpos).1
      refine hsee _ ?_
      rcases hsurr k i with h | ⟨m, hn, hmk⟩
      · rw [h]; exact Or.inl (hs k)
      · by_cases hne : m.1 = k
        · rw [← hmk, hne]; exact Or.inl (hs k)
        · rw [← hmk]; exact Or.inr (hnot k i m hn hne hw.le)
    · intro h2 j hj
      obtain ⟨hne, i', m, hn, hmj⟩ := inner_spec G k j hj
      refine hsee _ (Or.inr ?_)
      rw [← hmj]
      exact hnot k i' m hn (by rw [hmj]; exact hne) (hwetc h2)
  have hrx : restoredMp G p cm cm.xm = restored G p cs cs.xm := by
    funext k
    simp only [restoredMp, restored, hiso, hh, hv, if_true, e3]
    by_cases hi : isolated G p cs k = true
    · simp [hi]
    · simp only [hi]
      by_cases hl : height p cs k ≤ p.minH
      · simp [hl, not_lt.2 hl]
      · simp [hl, not_le.1 hl]
  have hry : restoredMp G p cm cm.ym = restored G p cs cs.ym := by
    funext k
    simp only [restoredMp, restored, hiso, hh, hv, if_true]
    by_cases hi : isolated G p cs k = true
    · simp [hi]
    · simp only [hi]
      by_cases hl : height p cs k ≤ p.minH
      · simp [hl, not_lt.2 hl]
      · simp [hl, not_le.1 hl, e4 k (hdeep k (not_le.1 hl))]
  have hE : extrapolateMp G p cm seen = extrapolate G p cs := by
    unfold extrapolateMp extrapolate
    have hfac : hfactor G { p with vel := true } cm = hfactor G p cs := by rw [hp, hf]
    have a1 : ∀ e : Edge N, extrapMp G cm.stage (betaTmp p.betaWDry p.betaW (hfactor G p cs e.1)) p.betaW e.1 e.2 =
        extrap G cs.stage (betaTmp p.betaWDry p.betaW (hfactor G p cs e.1)) p.betaW e.1 e.2 := by
      intro e; rw [extrapMp_eq G _ _ _ _ _ (harea e.1), e1]
    have a2 : ∀ e : Edge N, extrapMp G (heightMp cm) (betaTmp p.betaWDry p.betaW (hfactor G p cs e.1)) p.betaW e.1 e.2 =
        extrap G (height p cs) (betaTmp p.betaWDry p.betaW (hfactor G p cs e.1)) p.betaW e.1 e.2 := by
      intro e; rw [extrapMp_eq G _ _ _ _ _ (harea e.1), hh]
    simp only [hfac, a1, a2, hread cs.xm cm.xm c.xm p.betaUhDry p.betaUh hu0 hvelx
      (fun k i m h1 h2 => (hcorner k i m h1 h2).imp_right And.left) hxm,
      hread cs.ym cm.ym c.ym p.betaVhDry p.betaVh hv0 hvely (fun k i m h1 h2 => (hcorner k i m h1 h2).imp_right And.right) hym]
  simp only [hE, hrx, hry, hh, e1, e2]

/-- The iterations run by a single thread in order: iteration `k` sees what iterations up to `k` wrote. -/
def inOrder (k j : Fin N) : Bool := decide (j ≤ k)

/-- C48 fails when the limiter parameter at dry triangles is not zero, as in the schemes DE0_7 and DE1_7: two orders of
execution give different results at a film of water between two isolated wet triangles. -/
theorem C48_race_with_dry_beta :
    ∃ c : Cent 4 ℚ, (distributeMp starG { starP with betaUhDry := 1 / 10, betaWDry := 1 / 10 } (fun _ => 12) c (fun _ _ => true)).2.xm (0, 1) ≠
      (distributeMp starG { starP with betaUhDry := 1 / 10, betaWDry := 1 / 10 } (fun _ => 12) c (fun k j => decide (k = j))).2.xm (0, 1) :=
  ⟨⟨![1 / 200000, 1, 0, 1], ![0, 0, 0, 0], ![0, 1, 0, -1], fun _ => 0, fun _ => 0⟩, by decide +kernel⟩

/-- C48 fails when momenta rather than velocities are extrapolated: the serial routine then works with the depths of the
previous call. -/
theorem C48_not_without_velocity :
    ∃ c : Cent 4 ℚ, (distributeMp starG { starP with vel := false } (fun _ => 12) c inOrder).2.bed (0, 0) ≠
      (distribute starG { starP with vel := false } (fun _ => 12) c).2.bed (0, 0) :=
  ⟨⟨![1, 1, 1, 1], ![0, 0, 0, 0], ![0, 1, 0, 0], fun _ => 0, ![2, 2, 2, 2]⟩, by decide +kernel⟩

/-- The hypotheses are met by a mesh of four triangles with moving water and an isolated dry triangle. -/
example : Verif.Flux.Symmetric starG.nbr ∧ Oriented starG ∧ (∀ k, boundaryEdges starG.nbr k ≠ 2) ∧
    0 < starP.minH ∧ starP.betaUhDry = 0 ∧ starP.betaVhDry = 0 ∧
    (distribute starG starP (fun _ => 12) ⟨![1, 2, 1, 0], ![0, 0, 0, 0], ![1, 2, 3, 4], ![4, 3, 2, 1], fun _ => 0⟩).2.xm (1, 1) ≠ 0 := by
  refine ⟨?_, ?_, ?_, ?_⟩
  · unfold Verif.Flux.Symmetric starG starNbr; decide
  · unfold Oriented boundaryEdges; decide +kernel
  · unfold boundaryEdges; decide +kernel
  · decide +kernel

end Verif.Extrap
