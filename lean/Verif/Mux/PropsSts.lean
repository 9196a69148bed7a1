import Verif.Mux.ModelSts
import Verif.Mux.PropsTimes

/-! # C111: files of gauges made from multiplexed files -/

namespace Verif.Mux

set_option linter.unusedSectionVars false

variable {K : Type} [Field K] [LinearOrder K] [IsStrictOrderedRing K]

/-- What a call that returned has read. -/
theorem urs2sts_reads {o : Options K} {ha ua va : List (Src K)} {f : StsFile K} (h : urs2sts o ha ua va = .ok f) :
    ∃ a b c, readPy ha (o.weights.getD (List.replicate ha.length (1 / (ha.length : K)))) (o.perm.getD []) = .ok a ∧
      readPy ua (o.weights.getD (List.replicate ha.length (1 / (ha.length : K)))) (o.perm.getD []) = .ok b ∧
      readPy va (o.weights.getD (List.replicate ha.length (1 / (ha.length : K)))) (o.perm.getD []) = .ok c ∧
      agrees b a = true ∧ agrees c b = true := by
  unfold urs2sts at h
  simp only at h
  cases h1 : readPy ha (o.weights.getD (List.replicate ha.length (1 / (ha.length : K)))) (o.perm.getD []) with
  | error e => rw [h1] at h; cases h
  | ok a =>
    rw [h1] at h
    simp only at h
    cases h2 : readPy ua (o.weights.getD (List.replicate ha.length (1 / (ha.length : K)))) (o.perm.getD []) with
    | error e => rw [h2] at h; cases h
    | ok b =>
      rw [h2] at h
      simp only at h
      by_cases e1 : agrees b a = true
      · rw [if_neg (by simpa using e1)] at h
        cases h3 : readPy va (o.weights.getD (List.replicate ha.length (1 / (ha.length : K)))) (o.perm.getD []) with
        | error e => rw [h3] at h; cases h
        | ok c =>
          rw [h3] at h
          simp only at h
          by_cases e2 : agrees c b = true
          · exact ⟨a, b, c, rfl, rfl, rfl, e1, e2⟩
          · rw [if_pos (by simpa using e2)] at h; cases h
      · rw [if_pos (by simpa using e1)] at h; cases h

/-- **C111.** The file: every gauge at its projected place, all in one zone; heights are scaled and raised, velocities are multiplied by the depth
and turned from south to north; a height of 99 counts as still water. Times are those of the multiplexed files. -/
theorem C111_file {o : Options K} {ha ua va : List (Src K)} {f : StsFile K} (h : urs2sts o ha ua va = .ok f) {a b c : Result K}
    (h1 : readPy ha (o.weights.getD (List.replicate ha.length (1 / (ha.length : K)))) (o.perm.getD []) = .ok a)
    (h2 : readPy ua (o.weights.getD (List.replicate ha.length (1 / (ha.length : K)))) (o.perm.getD []) = .ok b)
    (h3 : readPy va (o.weights.getD (List.replicate ha.length (1 / (ha.length : K)))) (o.perm.getD []) = .ok c) :
    stsBoundary f = (c.lats.zip c.lons).map (fun p => (o.project p.1 p.2).2) ∧
    (∃ z, ∀ p ∈ c.lats.zip c.lons, (o.project p.1 p.2).1 = z ∧ ∀ z', o.zone = some z' → z' = z) ∧
    (f.times.length = c.times.length ∧ ∀ (k : ℕ) (t : K), c.times[k]? = some t → ∃ t', f.times[k]? = some t' ∧
      t' + f.starttime = t + c.starttime) ∧
    f.elevation = c.elevation ∧
    ∀ j i : ℕ, j < c.times.length → i < (c.lats.zip c.lons).length →
      (at2 a.quantity i j ≠ 99 →
        at2 f.stage j i = o.zscale * at2 a.quantity i j + o.mean ∧
        at2 f.xmomentum j i = at2 b.quantity i j * (at2 f.stage j i - f.elevation.getD i 0) ∧
        at2 f.ymomentum j i = -(at2 c.quantity i j * (at2 f.stage j i - f.elevation.getD i 0))) ∧
      (at2 a.quantity i j = 99 → at2 f.stage j i = o.mean ∧ at2 f.xmomentum j i = 0 ∧ at2 f.ymomentum j i = 0) := by
  obtain ⟨a', b', c', r1, r2, r3, e1, e2⟩ := urs2sts_reads h
  obtain rfl : a' = a := by rw [h1] at r1; cases r1; rfl
  obtain rfl : b' = b := by rw [h2] at r2; cases r2; rfl
  obtain rfl : c' = c := by rw [h3] at r3; cases r3; rfl
  unfold urs2sts at h
  simp only [h1, h2, h3] at h
  rw [if_neg (by simpa using e1), if_neg (by simpa using e2)] at h
  by_cases hz : ((c'.lats.zip c'.lons).map fun p => o.project p.1 p.2).all
      (fun p => p.1 == o.zone.getD ((((c'.lats.zip c'.lons).map fun p => o.project p.1 p.2).head?.map Prod.fst).getD 0)) = true
  · rw [if_neg (by simpa using hz)] at h
    injection h with h
    subst h
    refine ⟨?_, ?_, ?_, rfl, ?_⟩
    · unfold stsBoundary
      simp only [List.map_map]
      rw [List.zip_map', ]
      refine List.map_congr_left fun p _ => ?_
      simp
    · refine ⟨o.zone.getD ((((c'.lats.zip c'.lons).map fun p => o.project p.1 p.2).head?.map Prod.fst).getD 0),
        fun p hp => ⟨?_, fun z' hz' => by rw [hz']; rfl⟩⟩
      rw [List.all_eq_true] at hz
      have := hz (o.project p.1 p.2) (List.mem_map_of_mem (f := fun p => o.project p.1 p.2) hp)
      simpa using this
    · refine ⟨by simp, ?_⟩
      intro k t hk
      refine ⟨t + c'.starttime - ((c'.times.map fun t => t + c'.starttime).headD 0), ?_, by ring⟩
      simp only [List.getElem?_map, hk, Option.map_some]
    · intro j i hj hi
      have get : ∀ g : K × K × K → K, at2 ((List.range c'.times.length).map fun j => ((List.range
          ((c'.lats.zip c'.lons).map fun p => o.project p.1 p.2).length).map fun i =>
            cell o (c'.elevation.getD i 0) (at2 a'.quantity i j) (at2 b'.quantity i j) (at2 c'.quantity i j)).map g) j i =
          g (cell o (c'.elevation.getD i 0) (at2 a'.quantity i j) (at2 b'.quantity i j) (at2 c'.quantity i j)) := by
        intro g
        unfold at2
        simp only [List.getD_eq_getElem?_getD, List.getElem?_map, List.getElem?_range hj, Option.map_some, Option.getD_some,
          List.length_map, List.getElem?_range hi]
      simp only [get (fun q => q.1), get (fun q => q.2.1), get (fun q => q.2.2)]
      constructor
      · intro hne
        unfold cell
        rw [if_neg hne]
        simp
      · intro he
        unfold cell
        rw [if_pos he]
        simp
  · rw [if_pos (by simpa using hz)] at h
    cases h

/-- **C111.** Put together: while a gauge asked for records in all sources, the stage stored for it at the time of step `t` is the weighted sum of
the heights of all sources at this step, scaled and raised. -/
theorem C111_stage {o : Options K} {ha ua va : List (Src K)} {f : StsFile K} (h : urs2sts o ha ua va = .ok f) {total nt : ℕ} {dt : K}
    {v : Src K → ℕ → ℕ → K} (hr : Ready ha total nt dt v) (weights : List K)
    (hw : weights = o.weights.getD (List.replicate ha.length (1 / (ha.length : K)))) (hlen : weights.length = ha.length)
    (perm : List ℕ) (hperm : perm = o.perm.getD []) (hp : ∀ i ∈ perm, i < total) (hdt : 0 < dt)
    (hrec : ∀ i ∈ chosen total perm, ∀ s ∈ ha, 1 ≤ fro s i ∧ lro s i ≤ nt)
    (hwide : ∃ i ∈ chosen total perm, ∃ j ∈ chosen total perm, ∃ s ∈ ha, ∃ s' ∈ ha, fro s i < lro s' j)
    (hbig : dt * (nt : K) ≤ 10 ^ 16)
    (hsame : ∀ a c, readPy ha weights perm = .ok a → readPy va weights perm = .ok c →
      c.times = a.times ∧ c.starttime = a.starttime ∧ (c.lats.zip c.lons).length = (chosen total perm).length)
    (n i t : ℕ) (hn : (chosen total perm)[n]? = some i) (ht : ∀ s ∈ ha, fro s i ≤ t ∧ (t : ℤ) ≤ lro s i)
    (hd : ∀ s ∈ ha, Data (value s (v s) (grid ha i) i t))
    (hsum : ∀ m, 0 < m → m ≤ ha.length → Data (weighted ((parts ha weights v i t).take m))) :
    ∃ k t', f.times[k]? = some t' ∧ t' + f.starttime = dt * (t : K) ∧
      at2 f.stage k n = o.zscale * weighted (parts ha weights v i t) + o.mean := by
  subst hw hperm
  obtain ⟨a, b, c, r1, r2, r3, -, -⟩ := urs2sts_reads h
  obtain ⟨res, rows, start, finish, p1, p2, p3, p4, p5, p6, p7, p8⟩ := C110_times hr _ hlen _ hp hdt hrec hwide hbig
  obtain rfl : res = a := by rw [p1] at r1; cases r1; rfl
  obtain ⟨q1, q2, q3⟩ := hsame _ _ r1 r3
  obtain ⟨rows', m1, m2, m3⟩ := C110_read hr _ hlen _ hp
  obtain rfl : rows' = rows := by rw [p2] at m1; cases m1; rfl
  have hic := List.mem_of_getElem? hn
  obtain ⟨s0, hs0⟩ := List.exists_mem_of_ne_nil _ hr.some.1
  have hst : start ≤ t := (p3.2 ⟨i, hic, s0, hs0, rfl⟩).trans (ht s0 hs0).1
  have htf : (t : ℤ) ≤ finish := (ht s0 hs0).2.trans (p4.2 ⟨i, hic, s0, hs0, rfl⟩)
  have hs1 : 1 ≤ start := by
    obtain ⟨i', hi', s, hs, e⟩ := p3.1
    rw [e]; exact (hrec i' hi' s hs).1
  obtain ⟨k, hk⟩ : ∃ k : ℕ, start + k = t := ⟨(t - start).toNat, by omega⟩
  obtain ⟨tk, ht1, ht2⟩ := p6 k (by omega)
  obtain ⟨row, hrow⟩ : ∃ r, rows'[n]? = some (i, r) := by
    rw [← m2, List.getElem?_map] at hn
    cases hx : rows'[n]? with
    | none => rw [hx] at hn; cases hn
    | some y =>
      rw [hx] at hn
      simp only [Option.map_some, Option.some.injEq] at hn
      exact ⟨y.2, by rw [← hn]⟩
  obtain ⟨q, hq1, hq2, hq3⟩ := p8 n i row hrow
  obtain ⟨l1, l2, l3, l4⟩ := m3 i row (List.mem_of_getElem? hrow)
  have hlast : (t : ℤ) ≤ row.last := (ht s0 hs0).2.trans (l3.2 ⟨s0, hs0, rfl⟩)
  have htn : (t : ℤ) ≤ nt := by
    obtain ⟨s, hs, e⟩ := l3.1
    rw [e] at hlast
    exact hlast.trans (hrec i hic s hs).2
  have hval := (l4 (t - 1) (by omega)).1
  have e1 : t - 1 + 1 = t := by omega
  rw [e1] at hval
  have hval := hval (by
    intro x hx
    obtain ⟨y, hy, rfl⟩ := List.mem_map.1 hx
    exact hd y.1 (List.of_mem_zip hy).1) fun m hm hlt => hsum m hm hlt.le
  have hq := hq3 k (by omega)
  rw [hk, if_pos hlast] at hq
  have e2 : ((t : ℤ) - 1).toNat = t - 1 := by omega
  rw [e2, List.getD_eq_getElem?_getD, hval, Option.getD_some] at hq
  have hat : at2 res.quantity n k = weighted (parts ha (o.weights.getD (List.replicate ha.length (1 / (ha.length : K)))) v i t) := by
    unfold at2
    simp only [List.getD_eq_getElem?_getD, hq1, hq, Option.getD_some]
  obtain ⟨-, -, ⟨-, g3⟩, -, g5⟩ := C111_file h r1 r2 r3
  obtain ⟨t', ht', ht''⟩ := g3 k tk (q1 ▸ ht1)
  refine ⟨k, t', ht', ?_, ?_⟩
  · rw [ht'', q2, ht2, hk]
    push_cast
    rfl
  · have hne : at2 res.quantity n k ≠ 99 := by
      rw [hat]
      have hpl : (parts ha (o.weights.getD (List.replicate ha.length (1 / (ha.length : K)))) v i t).length = ha.length := by
        unfold parts
        simp only [List.length_map, List.length_zip, hlen, Nat.min_self]
      have := hsum ha.length (List.length_pos_iff.2 hr.some.1) le_rfl
      rw [List.take_of_length_le (by rw [hpl])] at this
      intro e
      rw [e] at this
      unfold Data at this
      norm_num at this
    have hkl : k < c.times.length := by
      rw [q1]
      exact (List.getElem?_eq_some_iff.1 ht1).1
    have hnl : n < (c.lats.zip c.lons).length := by
      rw [q3]
      exact (List.getElem?_eq_some_iff.1 hn).1
    rw [((g5 k n hkl hnl).1 hne).1, hat]

end Verif.Mux
