import Verif.PlotU.PropsCent
import Mathlib.Data.List.Forall2

/-! # C101: files put together, areas, volumes, transects and triangles -/

namespace Verif.PlotU

set_option linter.unusedSectionVars false

open Verif.Polygon (Pt IsSqrt OnSeg InTri Clear Side)
open Verif.FileFn (Var)

variable {K : Type*} [Field K] [LinearOrder K] [IsStrictOrderedRing K]

/-! ## Files put together -/

theorem times_all (time : List K) : times ((Slices.all).inds time.length) time = time := by
  simp only [Slices.inds, times]
  apply List.ext_getElem
  · simp
  · intro i h1 h2
    simp [List.getD, List.getElem?_eq_getElem h2]

theorem appendAll_spec {sq : K → K} {hmin : K} {first : Sww K} {fs : List (Sww K)} {p0 p : Out K} (h : appendAll sq hmin first p0 fs = some p) :
    ∃ outs : List (Out K), List.Forall₂ (fun f o => getOutput sq f hmin .all = some o ∧ f.x = first.x ∧ f.vols = first.vols) fs outs ∧
      p.time = p0.time ++ (outs.map Out.time).flatten ∧ p.stage = p0.stage ++ (outs.map Out.stage).flatten ∧
      p.height = p0.height ++ (outs.map Out.height).flatten ∧ p.xmom = p0.xmom ++ (outs.map Out.xmom).flatten ∧
      p.ymom = p0.ymom ++ (outs.map Out.ymom).flatten ∧ p.xvel = p0.xvel ++ (outs.map Out.xvel).flatten ∧
      p.yvel = p0.yvel ++ (outs.map Out.yvel).flatten ∧ p.vel = p0.vel ++ (outs.map Out.vel).flatten ∧
      p.elev = p0.elev ∧ p.slices = p0.slices := by
  induction fs generalizing p0 with
  | nil =>
    simp only [appendAll, Option.some.injEq] at h
    subst h
    exact ⟨[], List.Forall₂.nil, by simp⟩
  | cons f fs ih =>
    unfold appendAll at h
    cases hq : getOutput sq f hmin .all with
    | none => rw [hq] at h; simp at h
    | some q =>
      rw [hq] at h
      simp only at h
      split_ifs at h with hc
      obtain ⟨outs, h1, h2, h3, h4, h5, h6, h7, h8, h9, h10, h11⟩ := ih h
      refine ⟨q :: outs, List.Forall₂.cons ⟨hq, hc.1.symm, hc.2.symm⟩ h1, ?_⟩
      simp only [List.map_cons, List.flatten_cons, h2, h3, h4, h5, h6, h7, h8, h9, h10, h11]
      simp [Out.append]

theorem appendAll_total {sq : K → K} {hmin : K} {first : Sww K} {fs : List (Sww K)} (p0 : Out K)
    (h : ∀ f ∈ fs, (∃ o, getOutput sq f hmin .all = some o) ∧ f.x = first.x ∧ f.vols = first.vols) :
    ∃ p, appendAll sq hmin first p0 fs = some p := by
  induction fs generalizing p0 with
  | nil => exact ⟨p0, rfl⟩
  | cons f fs ih =>
    obtain ⟨⟨o, ho⟩, h1, h2⟩ := h f (by simp)
    unfold appendAll
    rw [ho]
    simp only
    rw [if_pos ⟨h1.symm, h2.symm⟩]
    exact ih _ fun f hf => h f (by simp [hf])

/-- **C101.** Files put together: the files must be on the same mesh; times and the rows of every array follow each other in the order of the
files. The bed is that of the first file. -/
theorem C101_combine {sq : K → K} {hmin : K} {f : Sww K} {fs : List (Sww K)} {p : Out K} (h : combine sq hmin (f :: fs) = some p) :
    ∃ outs : List (Out K),
      List.Forall₂ (fun g o => getOutput sq g hmin .all = some o ∧ g.x = f.x ∧ g.vols = f.vols ∧ o.time = g.time) (f :: fs) outs ∧
      p.time = ((f :: fs).map Sww.time).flatten ∧ p.time = (outs.map Out.time).flatten ∧ p.stage = (outs.map Out.stage).flatten ∧
      p.height = (outs.map Out.height).flatten ∧
      p.xmom = (outs.map Out.xmom).flatten ∧ p.ymom = (outs.map Out.ymom).flatten ∧ p.xvel = (outs.map Out.xvel).flatten ∧
      p.yvel = (outs.map Out.yvel).flatten ∧ p.vel = (outs.map Out.vel).flatten ∧ ∀ o, getOutput sq f hmin .all = some o → p.elev = o.elev := by
  unfold combine at h
  simp only at h
  cases hq : getOutput sq f hmin .all with
  | none => rw [hq] at h; simp at h
  | some q =>
    rw [hq] at h
    simp only at h
    have ht : ∀ (g : Sww K) (o : Out K), getOutput sq g hmin .all = some o → o.time = g.time := by
      intro g o ho
      obtain ⟨st, el, xm, ym, -, -, -, -, -, rfl⟩ := getOutput_some ho
      exact times_all g.time
    obtain ⟨outs, h1, h2, h3, h4, h5, h6, h7, h8, h9, h10, h11⟩ := appendAll_spec h
    refine ⟨q :: outs, List.Forall₂.cons ⟨hq, rfl, rfl, ht f q hq⟩ ?_, ?_, ?_⟩
    · exact h1.imp fun g o hg => ⟨hg.1, hg.2.1, hg.2.2, ht g o hg.1⟩
    · rw [h2, ht f q hq, List.map_cons, List.flatten_cons]
      congr 1
      have : outs.map Out.time = fs.map Sww.time := by
        clear h h2 h3 h4 h5 h6 h7 h8 h9 h10 h11
        induction h1 with
        | nil => rfl
        | cons hg _ ih => rw [List.map_cons, List.map_cons, ih, ht _ _ hg.1]
      rw [this]
    · simp only [List.map_cons, List.flatten_cons]
      refine ⟨h2, h3, h4, h5, h6, h7, h8, h9, fun o ho => ?_⟩
      rw [Option.some.inj ho] at h10
      exact h10

/-- **C101.** Files on one mesh that can be read can be put together. -/
theorem C101_combine_ok {sq : K → K} {hmin : K} {f : Sww K} {fs : List (Sww K)}
    (h : ∀ g ∈ f :: fs, (∃ o, getOutput sq g hmin .all = some o) ∧ g.x = f.x ∧ g.vols = f.vols) : ∃ p, combine sq hmin (f :: fs) = some p := by
  obtain ⟨⟨o, ho⟩, -⟩ := h f (by simp)
  unfold combine
  simp only
  rw [ho]
  exact appendAll_total o fun g hg => h g (by simp [hg])

/-- **C101.** Centroids of files put together: whatever files follow and whatever smallest depth was given, the answer is that for the first file
alone with the smallest depth 0.001. -/
theorem C101_first_only {sq : K → K} {hmin : K} {f : Sww K} {fs : List (Sww K)} {p : Out K} (h : combine sq hmin (f :: fs) = some p) (ex : Bool) :
    centroidsOf sq f p ex = getCentroids sq f ex (1 / 10 ^ 3) .all := by
  unfold combine at h
  simp only at h
  cases hq : getOutput sq f hmin .all with
  | none => rw [hq] at h; simp at h
  | some q =>
    rw [hq] at h
    simp only at h
    obtain ⟨outs, -, -, -, -, -, -, -, -, -, -, h11⟩ := appendAll_spec h
    obtain ⟨st, el, xm, ym, -, -, -, -, -, rfl⟩ := getOutput_some hq
    unfold centroidsOf
    rw [h11]
    unfold getCentroids
    rfl

/-! ## Areas and volumes -/

/-- Corners of triangle `k`. -/
def Tri (x : List (Pt K)) (vols : List (ℕ × ℕ × ℕ)) (k : ℕ) (A B C : Pt K) : Prop :=
  ∃ t, vols[k]? = some t ∧ x[t.1]? = some A ∧ x[t.2.1]? = some B ∧ x[t.2.2]? = some C

/-- `v` is the area of the triangle: half of base times height, with the height over the side `A B` (any side will do, `C101_area`). -/
def Area (A B C : Pt K) (v : K) : Prop := 0 ≤ v ∧ 2 * v = |(B.x - A.x) * (C.y - A.y) - (B.y - A.y) * (C.x - A.x)|

theorem area_spec {x : List (Pt K)} {vols : List (ℕ × ℕ × ℕ)} {k : ℕ} {A B C : Pt K} (h : Tri x vols k A B C) : Area A B C (area x vols k) := by
  obtain ⟨t, ht, h0, h1, h2⟩ := h
  unfold area
  simp only [List.getD, ht, h0, h1, h2, Option.getD_some]
  refine ⟨abs_nonneg _, ?_⟩
  rw [abs_mul, abs_of_pos (show (0 : K) < 1 / 2 by norm_num)]
  have e : (A.x - B.x) * (C.y - B.y) - (A.y - B.y) * (C.x - B.x) = -((B.x - A.x) * (C.y - A.y) - (B.y - A.y) * (C.x - A.x)) := by ring
  rw [e, abs_neg]
  ring

/-- **C101.** Areas are those of the triangles, whichever way round the corners are listed. -/
theorem C101_area {x : List (Pt K)} {vols : List (ℕ × ℕ × ℕ)} {k : ℕ} {A B C : Pt K} (h : Tri x vols k A B C) :
    Area A B C (area x vols k) ∧ Area B C A (area x vols k) ∧ Area B A C (area x vols k) := by
  have h1 := area_spec h
  refine ⟨h1, ⟨h1.1, ?_⟩, ⟨h1.1, ?_⟩⟩
  · rw [h1.2]
    congr 1
    ring
  · rw [h1.2, ← abs_neg]
    congr 1
    ring

/-- **C101.** The volume at every time is the sum over the triangles of area times depth (where the stage is above the bed); per unit area it is
divided by the total area. -/
theorem C101_volume {x : List (Pt K)} {vols : List (ℕ × ℕ × ℕ)} {stage : List (List K)} {elev : List K} {subset : Option (List ℕ)} {i : ℕ}
    {r : List K} (hr : stage[i]? = some r) {cells : List ℕ} (hc : cells = match subset with | some s => s | none => List.range vols.length)
    {d a : ℕ → K} (hd : ∀ k ∈ cells, ∃ s b, r[k]? = some s ∧ elev[k]? = some b ∧ d k = max (s - b) 0)
    (ha : ∀ k ∈ cells, ∃ A B C, Tri x vols k A B C ∧ Area A B C (a k)) :
    (waterVolume x vols stage elev false subset)[i]? = some (cells.map fun k => d k * a k).sum ∧
      ∃ v, (waterVolume x vols stage elev true subset)[i]? = some v ∧
        ((cells.map a).sum ≠ 0 → v * (cells.map a).sum = (cells.map fun k => d k * a k).sum) := by
  have hsub : subset.getD (List.range vols.length) = cells := by
    rw [hc]
    cases subset <;> rfl
  have harea : ∀ k ∈ cells, area x vols k = a k := by
    intro k hk
    obtain ⟨A, B, C, ht, h1, h2⟩ := ha k hk
    have h3 := area_spec ht
    have : 2 * area x vols k = 2 * a k := h3.2.trans h2.symm
    exact mul_left_cancel₀ two_ne_zero this
  have hsum : (cells.map fun k => r.getD k 0 * (if r.getD k 0 > elev.getD k 0 then 1 else 0) * area x vols k).sum +
      (cells.map fun k => -elev.getD k 0 * (if r.getD k 0 > elev.getD k 0 then 1 else 0) * area x vols k).sum =
      (cells.map fun k => d k * a k).sum := by
    rw [← List.sum_map_add]
    congr 1
    apply List.map_congr_left
    intro k hk
    obtain ⟨s, b, h1, h2, h3⟩ := hd k hk
    rw [harea k hk, h3]
    simp only [List.getD, h1, h2, Option.getD_some]
    split_ifs with hsb
    · rw [max_eq_left (sub_nonneg.mpr (le_of_lt hsb))]
      ring
    · rw [max_eq_right (sub_nonpos.mpr (not_lt.mp hsb))]
      ring
  have htot : (cells.map (area x vols)).sum = (cells.map a).sum := by
    congr 1
    exact List.map_congr_left harea
  refine ⟨?_, (cells.map fun k => d k * a k).sum / (cells.map a).sum, ?_, fun h => div_mul_cancel₀ _ h⟩
  · unfold waterVolume
    simp only [List.getElem?_map, hr, Option.map_some, hsub, Bool.false_eq_true, if_false]
    rw [hsum]
  · unfold waterVolume
    simp only [List.getElem?_map, hr, Option.map_some, hsub, if_true]
    rw [hsum, htot]

/-- **C101.** One volume per time. -/
theorem C101_volume_times {x : List (Pt K)} {vols : List (ℕ × ℕ × ℕ)} {stage : List (List K)} {elev : List K} {b : Bool} {subset : Option (List ℕ)} :
    (waterVolume x vols stage elev b subset).length = stage.length := by
  simp [waterVolume]

/-! ## Transects -/

/-- `c` metres from `p1` along the line to `p2` lies the point `F`. -/
def Along (p1 p2 : Pt K) (L c : K) (F : Pt K) : Prop := F.x = p1.x + c / L * (p2.x - p1.x) ∧ F.y = p1.y + c / L * (p2.y - p1.y)

/-- Line distance squared times squared length. -/
theorem line_dist {sq : K → K} (hsq : IsSqrt sq) {p1 p2 : Pt K} (p : Pt K) {L : K}
    (hL2 : L ^ 2 = (p2.x - p1.x) ^ 2 + (p2.y - p1.y) ^ 2) :
    let g := (p2.y - p1.y) / (p2.x - p1.x)
    let a := if p1.x ≠ p2.x then -g else 1
    let b := if p1.x ≠ p2.x then 1 else 0
    let c := if p1.x ≠ p2.x then -(p1.y - g * p1.x) else -p2.x
    0 ≤ |p.x * a + p.y * b + c| * (1 / sq (a ^ 2 + b ^ 2)) ∧ (|p.x * a + p.y * b + c| * (1 / sq (a ^ 2 + b ^ 2))) ^ 2 * L ^ 2 =
      ((p2.x - p1.x) * (p.y - p1.y) - (p2.y - p1.y) * (p.x - p1.x)) ^ 2 := by
  intro g a b c
  have hab : 0 < a ^ 2 + b ^ 2 := by
    simp only [a, b]
    split_ifs <;> nlinarith [sq_nonneg g]
  have hs := hsq _ hab.le
  have hs0 : 0 < sq (a ^ 2 + b ^ 2) := by
    rcases hs.1.lt_or_eq with h | h
    · exact h
    · rw [← h, mul_zero] at hs
      exact absurd hs.2 hab.ne
  refine ⟨by positivity, ?_⟩
  have e1 : (|p.x * a + p.y * b + c| * (1 / sq (a ^ 2 + b ^ 2))) ^ 2 = (p.x * a + p.y * b + c) ^ 2 / (a ^ 2 + b ^ 2) := by
    rw [mul_pow, sq_abs, div_pow, one_pow, pow_two (sq _), hs.2]
    ring
  rw [e1, hL2, div_mul_eq_mul_div, div_eq_iff hab.ne']
  by_cases hx : p1.x ≠ p2.x
  · have hd : p2.x - p1.x ≠ 0 := sub_ne_zero.mpr (Ne.symm hx)
    simp only [a, b, c, if_pos hx]
    have hg : g * (p2.x - p1.x) = p2.y - p1.y := div_mul_cancel₀ _ hd
    rw [← hg]
    ring
  · simp only [a, b, c, if_neg hx]
    have : p1.x = p2.x := not_not.mp hx
    rw [this]
    ring

/-- Distance to the foot. -/
theorem foot_dist {p1 p2 p F : Pt K} {L c : K} (hL : 0 < L) (hL2 : L ^ 2 = (p2.x - p1.x) ^ 2 + (p2.y - p1.y) ^ 2) (hF : Along p1 p2 L c F)
    (hc : c * L = (p2.x - p1.x) * (p.x - p1.x) + (p2.y - p1.y) * (p.y - p1.y)) :
    ((p.x - F.x) ^ 2 + (p.y - F.y) ^ 2) * L ^ 2 = ((p2.x - p1.x) * (p.y - p1.y) - (p2.y - p1.y) * (p.x - p1.x)) ^ 2 := by
  obtain ⟨h1, h2⟩ := hF
  have h3 : (p.x - F.x) * L = (p.x - p1.x) * L - c * (p2.x - p1.x) := by
    rw [h1]
    field_simp
    ring
  have h4 : (p.y - F.y) * L = (p.y - p1.y) * L - c * (p2.y - p1.y) := by
    rw [h2]
    field_simp
    ring
  have h5 : ((p.x - F.x) ^ 2 + (p.y - F.y) ^ 2) * L ^ 2 = ((p.x - F.x) * L) ^ 2 + ((p.y - F.y) * L) ^ 2 := by ring
  rw [h5, h3, h4]
  linear_combination ((p.x - p1.x) ^ 2 + (p.y - p1.y) ^ 2 - c ^ 2) * hL2 + (c * L - ((p2.x - p1.x) * (p.x - p1.x) + (p2.y - p1.y) * (p.y - p1.y))) * hc

theorem foot_orth {p1 p2 p F : Pt K} {L c : K} (hL : 0 < L) (hL2 : L ^ 2 = (p2.x - p1.x) ^ 2 + (p2.y - p1.y) ^ 2) (hF : Along p1 p2 L c F) :
    (p.x - F.x) * (p2.x - p1.x) + (p.y - F.y) * (p2.y - p1.y) = 0 ↔
      c * L = (p2.x - p1.x) * (p.x - p1.x) + (p2.y - p1.y) * (p.y - p1.y) := by
  obtain ⟨h1, h2⟩ := hF
  have h3 : c / L * L ^ 2 = c * L := by field_simp
  have h4 : (p.x - F.x) * (p2.x - p1.x) + (p.y - F.y) * (p2.y - p1.y) =
      (p2.x - p1.x) * (p.x - p1.x) + (p2.y - p1.y) * (p.y - p1.y) - c * L := by
    rw [h1, h2, ← h3, hL2]
    ring
  rw [h4, sub_eq_zero]
  exact eq_comm

theorem near_iff {D T L S : K} (hD : 0 ≤ D) (hT : 0 ≤ T) (hL : 0 < L) (h : D ^ 2 * L ^ 2 = S * L ^ 2) : D < T ↔ S < T ^ 2 := by
  have : D ^ 2 = S := mul_right_cancel₀ (by positivity) h
  rw [← this]
  exact (pow_lt_pow_iff_left₀ hD hT two_ne_zero).symm

/-- **C101.** A transect from `p1` to `p2` lists, in the order of the points, exactly the points whose foot on the line lies between `p1` and `p2`
and that are less than `tol` away from it, each with the distance of the foot from `p1`. -/
theorem C101_transect {sq : K → K} (hsq : IsSqrt sq) (x : List (Pt K)) {p1 p2 : Pt K} {tol L : K} (ht : 0 ≤ tol) (hL : 0 < L)
    (hL2 : L ^ 2 = (p2.x - p1.x) ^ 2 + (p2.y - p1.y) ^ 2) :
    (nearTransect sq x p1 p2 tol).Pairwise (fun a b => a.1 < b.1) ∧ ∀ (i : ℕ) (c : K), (i, c) ∈ nearTransect sq x p1 p2 tol ↔
      ∃ p F : Pt K, x[i]? = some p ∧ 0 ≤ c ∧ c ≤ L ∧ Along p1 p2 L c F ∧ (p.x - F.x) * (p2.x - p1.x) + (p.y - F.y) * (p2.y - p1.y) = 0 ∧
        (p.x - F.x) ^ 2 + (p.y - F.y) ^ 2 < tol ^ 2 := by
  have hroot : ∀ z : K, z = L ^ 2 → sq z = L := by
    intro z hz
    have := hsq z (by rw [hz]; positivity)
    exact (pow_left_inj₀ this.1 hL.le two_ne_zero).mp (by rw [pow_two, this.2, hz])
  have hn : sq ((p2.x - p1.x) ^ 2 + (p2.y - p1.y) ^ 2) = L := hroot _ hL2.symm
  have hn' : sq ((p1.x - p2.x) ^ 2 + (p1.y - p2.y) ^ 2) = L := hroot _ (by rw [hL2]; ring)
  refine ⟨?_, fun i c => ?_⟩
  · unfold nearTransect
    simp only
    apply List.Pairwise.filter
    rw [List.pairwise_map]
    apply List.Pairwise.filter
    exact List.pairwise_lt_range
  · unfold nearTransect
    simp only [hn, hn']
    rw [List.mem_filter, List.mem_map]
    simp only [List.mem_filter, List.mem_range, decide_eq_true_eq, Bool.and_eq_true, Prod.mk.injEq]
    constructor
    · rintro ⟨⟨i', ⟨hi, hd⟩, rfl, hc⟩, hcL, hc0⟩
      have hp : x[i']? = some x[i'] := List.getElem?_eq_getElem hi
      simp only [List.getD, hp, Option.getD_some] at hd hc
      set p := x[i'] with hpdef
      refine ⟨p, ⟨p1.x + c / L * (p2.x - p1.x), p1.y + c / L * (p2.y - p1.y)⟩, hp, hc0, hcL, ⟨rfl, rfl⟩, ?_⟩
      have hA : Along p1 p2 L c ⟨p1.x + c / L * (p2.x - p1.x), p1.y + c / L * (p2.y - p1.y)⟩ := ⟨rfl, rfl⟩
      have hcL' : c * L = (p2.x - p1.x) * (p.x - p1.x) + (p2.y - p1.y) * (p.y - p1.y) := by
        rw [← hc]
        field_simp
      refine ⟨(foot_orth hL hL2 hA).mpr hcL', ?_⟩
      have hl := line_dist hsq p hL2
      exact (near_iff hl.1 ht hL (hl.2.trans (foot_dist hL hL2 hA hcL').symm)).mp hd
    · rintro ⟨p, F, hp, hc0, hcL, hA, horth, hdist⟩
      have hi : i < x.length := (List.getElem?_eq_some_iff.mp hp).1
      have hcL' := (foot_orth hL hL2 hA).mp horth
      refine ⟨⟨i, ⟨hi, ?_⟩, rfl, ?_⟩, hcL, hc0⟩
      · simp only [List.getD, hp, Option.getD_some]
        have hl := line_dist hsq p hL2
        exact (near_iff hl.1 ht hL (hl.2.trans (foot_dist hL hL2 hA hcL').symm)).mpr hdist
      · simp only [List.getD, hp, Option.getD_some]
        have : c = ((p2.x - p1.x) * (p.x - p1.x) + (p2.y - p1.y) * (p.y - p1.y)) / L := by
          rw [eq_div_iff hL.ne', hcL']
        rw [this]
        ring

/-! ## Triangles -/

/-- The point lies inside the triangle or on one of its sides. -/
def Touches (p A B C : Pt K) : Prop := InTri p A B C ∨ OnSeg p A B ∨ OnSeg p B C ∨ OnSeg p C A

/-- **C101.** The triangle found contains the point (inside or on a side) and no earlier one in the order of the search does; if none is found no
triangle of the search does. Points within `2e-15` of a side but not on it are left open. -/
theorem C101_containing {sq : K → K} (hsq : IsSqrt sq) {x : List (Pt K)} {vols : List (ℕ × ℕ × ℕ)} {p : Pt K} {order : List ℕ}
    (hv : ∀ k ∈ order, ∃ A B C, Tri x vols k A B C)
    (hclear : ∀ k ∈ order, ∀ A B C, Tri x vols k A B C → Clear [A, B, C] p ∨ OnSeg p A B ∨ OnSeg p B C ∨ OnSeg p C A) :
    match containing sq x vols p order with
    | none => ∀ k ∈ order, ∀ A B C, Tri x vols k A B C → ¬ Touches p A B C
    | some k => ∃ before after, order = before ++ k :: after ∧ (∃ A B C, Tri x vols k A B C ∧ Touches p A B C) ∧
        ∀ k' ∈ before, ∀ A B C, Tri x vols k' A B C → ¬ Touches p A B C := by
  induction order with
  | nil => simp [containing]
  | cons k ks ih =>
    obtain ⟨A, B, C, hT⟩ := hv k (by simp)
    have hT' := hT
    obtain ⟨t, ht, h0, h1, h2⟩ := hT'
    have huniq : ∀ A' B' C', Tri x vols k A' B' C' → A' = A ∧ B' = B ∧ C' = C := by
      rintro A' B' C' ⟨t', ht', h0', h1', h2'⟩
      rw [ht] at ht'
      obtain rfl := Option.some.inj ht'
      rw [h0] at h0'
      rw [h1] at h1'
      rw [h2] at h2'
      exact ⟨(Option.some.inj h0').symm, (Option.some.inj h1').symm, (Option.some.inj h2').symm⟩
    have hsAB : Side [A, B, C] A B := ⟨0, by simp, rfl, rfl⟩
    have hsBC : Side [A, B, C] B C := ⟨1, by simp, rfl, rfl⟩
    have hsCA : Side [A, B, C] C A := ⟨2, by simp, rfl, by simp⟩
    have htest : Verif.Polygon.isInsidePolygon sq true p [A, B, C] = some true ↔ Touches p A B C := by
      rcases hclear k (by simp) A B C hT with hc | hc
      · rw [Verif.Polygon.C18_triangle sq hsq true A B C p hc]
        constructor
        · exact Or.inl
        · rintro (h | h | h | h)
          · exact h
          · exact absurd (h.near _) (hc A B hsAB)
          · exact absurd (h.near _) (hc B C hsBC)
          · exact absurd (h.near _) (hc C A hsCA)
      · refine ⟨fun _ => Or.inr hc, fun _ => ?_⟩
        rcases hc with h | h | h
        · exact Verif.Polygon.C18_boundary sq hsq true _ p A B hsAB h
        · exact Verif.Polygon.C18_boundary sq hsq true _ p B C hsBC h
        · exact Verif.Polygon.C18_boundary sq hsq true _ p C A hsCA h
    have hih := ih (fun k hk => hv k (by simp [hk])) fun k hk => hclear k (by simp [hk])
    have hstep : containing sq x vols p (k :: ks) =
        match Verif.Polygon.isInsidePolygon sq true p [A, B, C] with
        | none => none
        | some true => some k
        | some false => containing sq x vols p ks := by
      conv_lhs => unfold containing
      simp only [List.getD, ht, h0, h1, h2, Option.getD_some]
      all_goals rfl
    rw [hstep]
    have hsome := Verif.Polygon.isInside_eq sq true p [A, B, C]
    cases hb : Verif.Polygon.insideFlag sq true [A, B, C] p with
    | true =>
      rw [hb] at hsome
      rw [hsome]
      exact ⟨[], ks, rfl, ⟨A, B, C, hT, htest.mp hsome⟩, by simp⟩
    | false =>
      rw [hb] at hsome
      have hno : ¬ Touches p A B C := fun h => by
        have := htest.mpr h
        rw [hsome] at this
        simp at this
      rw [hsome]
      simp only
      cases hc : containing sq x vols p ks with
      | none =>
        rw [hc] at hih
        intro k' hk' A' B' C' hT'
        rcases List.mem_cons.mp hk' with rfl | hk'
        · obtain ⟨rfl, rfl, rfl⟩ := huniq A' B' C' hT'
          exact hno
        · exact hih k' hk' A' B' C' hT'
      | some k1 =>
        rw [hc] at hih
        obtain ⟨before, after, h3, h4, h5⟩ := hih
        refine ⟨k :: before, after, by rw [h3]; rfl, h4, ?_⟩
        intro k' hk' A' B' C' hT'
        rcases List.mem_cons.mp hk' with rfl | hk'
        · obtain ⟨rfl, rfl, rfl⟩ := huniq A' B' C' hT'
          exact hno
        · exact h5 k' hk' A' B' C' hT'

/-- Absolute position of the centroid of triangle `k`. -/
def Middle (f : Sww K) (k : ℕ) (M : Pt K) : Prop :=
  ∃ A B C, Tri f.x f.vols k A B C ∧ M.x = (A.x + B.x + C.x) / 3 + f.corner.x ∧ M.y = (A.y + B.y + C.y) / 3 + f.corner.y

/-- Squared distance. -/
def gap2 (P Q : Pt K) : K := (P.x - Q.x) ^ 2 + (P.y - Q.y) ^ 2

theorem dist2_middle {f : Sww K} {k : ℕ} {M p : Pt K} (h : Middle f k M) : dist2 f p k = gap2 M p := by
  obtain ⟨A, B, C, ⟨t, ht, h0, h1, h2⟩, hx, hy⟩ := h
  unfold dist2 mean gap2
  simp only [List.getD, ht, h0, h1, h2, Option.getD_some, hx, hy]

theorem argmin_spec (g : ℕ → K) (b : ℕ) (l : List ℕ) (hb : ∀ k ∈ l, b ≤ k) (hl : l.Pairwise (· ≤ ·)) :
    argminFrom g b l ∈ b :: l ∧ ∀ k ∈ b :: l, g (argminFrom g b l) ≤ g k ∧ (k < argminFrom g b l → g (argminFrom g b l) < g k) := by
  induction l generalizing b with
  | nil => simp [argminFrom]
  | cons c l ih =>
    unfold argminFrom
    have hbc := hb c (by simp)
    obtain ⟨hl1, hl2⟩ := List.pairwise_cons.mp hl
    split_ifs with h
    · obtain ⟨h1, h2⟩ := ih c hl1 hl2
      refine ⟨List.mem_cons_of_mem _ h1, fun k hk => ?_⟩
      rcases List.mem_cons.mp hk with rfl | hk
      · have := (h2 c (by simp)).1
        exact ⟨(this.trans_lt h).le, fun _ => this.trans_lt h⟩
      · exact h2 k hk
    · obtain ⟨h1, h2⟩ := ih b (fun k hk => hbc.trans (hl1 k hk)) hl2
      refine ⟨?_, fun k hk => ?_⟩
      · rcases List.mem_cons.mp h1 with h1 | h1
        · rw [h1]; simp
        · simp [h1]
      · rcases List.mem_cons.mp hk with rfl | hk
        · exact h2 _ (by simp)
        · rcases List.mem_cons.mp hk with rfl | hk
          · have h3 := (h2 b (by simp)).1.trans (not_lt.mp h)
            refine ⟨h3, fun hlt => ?_⟩
            rcases List.mem_cons.mp h1 with h4 | h4
            · omega
            · rcases h3.lt_or_eq with h5 | h5
              · exact h5
              · have h6 := h2 b (by simp)
                rcases hbc.lt_or_eq with h7 | h7
                · exact (h6.2 (h7.trans hlt)).trans_le (not_lt.mp h)
                · rw [← h7]
                  rw [← h7] at hlt
                  exact h6.2 hlt
          · exact h2 k (by simp [hk])

/-- **C101.** The triangle near a point is the first one whose centroid (in absolute coordinates) is closest to it, and it is not further away than
the tolerance; there is no answer only if every centroid is further away than the tolerance. -/
theorem C101_near {f : Sww K} {p : Pt K} {tol : K} (hf : ∀ k, k < f.vols.length → ∃ M, Middle f k M) :
    match nearPoint f p tol with
    | some k => ∃ M, Middle f k M ∧ gap2 M p ≤ tol ^ 2 ∧ ∀ k' M', Middle f k' M' → gap2 M p ≤ gap2 M' p ∧ (k' < k → gap2 M p < gap2 M' p)
    | none => ∀ k M, Middle f k M → tol ^ 2 < gap2 M p := by
  have hlt : ∀ k M, Middle f k M → k < f.vols.length := by
    rintro k M ⟨A, B, C, ⟨t, ht, -⟩, -⟩
    exact (List.getElem?_eq_some_iff.mp ht).1
  unfold nearPoint
  by_cases h0 : f.vols.length = 0
  · rw [if_pos h0]
    intro k M hM
    have := hlt k M hM
    omega
  · rw [if_neg h0]
    simp only
    obtain ⟨h1, h2⟩ := argmin_spec (dist2 f p) 0 (List.range f.vols.length) (by simp) List.pairwise_le_range
    set k := argminFrom (dist2 f p) 0 (List.range f.vols.length) with hk
    have hkl : k < f.vols.length := by
      rcases List.mem_cons.mp h1 with h | h
      · omega
      · simpa using h
    obtain ⟨M, hM⟩ := hf k hkl
    have key : ∀ k' M', Middle f k' M' → gap2 M p ≤ gap2 M' p ∧ (k' < k → gap2 M p < gap2 M' p) := by
      intro k' M' hM'
      have := h2 k' (by simp [hlt k' M' hM'])
      rw [dist2_middle hM, dist2_middle hM'] at this
      exact this
    by_cases hd : dist2 f p k > tol ^ 2
    · rw [if_pos hd]
      intro k' M' hM'
      rw [dist2_middle hM] at hd
      exact lt_of_lt_of_le hd (key k' M' hM').1
    · rw [if_neg hd]
      rw [dist2_middle hM] at hd
      exact ⟨M, hM, not_lt.mp hd, key⟩

end Verif.PlotU
