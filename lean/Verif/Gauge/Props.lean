import Verif.Gauge.Lemmas
import Mathlib.Data.List.Perm.Basic

/-! # C98: series at gauges -/

namespace Verif.Gauge

set_option linter.unusedSectionVars false

open Verif.Polygon (Pt IsSqrt)
open Verif.Interp (Mesh StrictlyIncreasing thin thin_get)
open Verif.FileFn

variable {K : Type*} [Field K] [LinearOrder K] [IsStrictOrderedRing K]

variable {mk : List (Pt K) → List (ℕ × ℕ × ℕ) → Option (Mesh K)}

theorem open_all {s : Src K} {names : List String} (hr : Reads mk s.f names s.x s.T s.vals s.m s.ts) (hT : s.T ≠ []) (sq : K → K) (hs : IsSqrt sq)
    (pts : List (Pt K)) (n : ℕ) (hn : 0 < n) (cen : Bool) (idx : List ℕ) (hk : Kept s.T s.f.starttime n none idx) :
    ∃ F, fileFunction sq mk s.f none (some names) { points := some pts, thinning := n, centroids := cen } = .ok (F, none) ∧
      F.starttime = s.f.starttime ∧ F.time = idx.map (fun i => s.T.getD i 0) ∧ ∀ (p : ℕ) (P : Pt K), pts[p]? = some P →
        (s.On sq P → ∃ abc, Around s.f s.x abc P ∧ ∀ i ∈ idx, ∃ q : List K, q.length = names.length ∧
          (∀ hist, ((F.after hist).call (s.T.getD i 0) (some p)).map Prod.snd = .ok (q.map .num)) ∧
          ∀ (k : ℕ) (name : String), names[k]? = some name → ∃ z, q[k]? = some z ∧ s.At cen abc P i name z) ∧
        (s.Off sq P → ∀ i ∈ idx, ∀ hist, ((F.after hist).call (s.T.getD i 0) (some p)).map Prod.snd = .ok (names.map fun _ => .inf)) := by
  have hne : idx ≠ [] := by
    have : 0 ∈ idx := (hk.mem 0).2 ⟨s.T[0]'(List.length_pos_of_ne_nil hT), List.getElem?_eq_getElem _, dvd_zero n, by simp⟩
    exact List.ne_nil_of_mem this
  have hidx := kept_eq (d := none) hr.increasing n hn none idx hk
  obtain ⟨F, hop, hst, hF⟩ := C97_value hr sq hs none { points := some pts, thinning := n, centroids := cen } pts rfl rfl hn idx hk hne
  have hop' := open_spec hr sq none { points := some pts, thinning := n, centroids := cen } pts rfl rfl hn idx hk hne
  have hft : F.time = thin n s.T := by
    rw [hop'] at hop
    rw [← Except.ok.inj hop]
    rfl
  have hin : ∀ i ∈ idx, i < s.T.length := by
    intro i hi
    obtain ⟨t, ht, -⟩ := (hk.mem i).1 hi
    exact (List.getElem?_eq_some_iff.1 ht).1
  have hget : ∀ i ∈ idx, s.T[i]? = some (s.T.getD i 0) := by
    intro i hi
    rw [List.getD_eq_getElem?_getD, List.getElem?_eq_getElem (hin i hi)]
    rfl
  have hcov : ∀ i ∈ idx, Covered s.f s.T idx (s.T.getD i 0 + origin s.f none) := fun i hi => ⟨⟨i, hi, le_rfl⟩, i, hi, le_rfl⟩
  have hsame : ∀ (p : ℕ) (P : Pt K), pts[p]? = some P → ∀ i ∈ idx, ∀ hist : List (K × Option ℕ),
      ((F.after hist).call (s.T.getD i 0) (some p)).map Prod.snd = ((F.call (s.T.getD i 0) (some p)).map Prod.snd) := by
    intro p P hP i hi hist
    obtain ⟨k, hki⟩ := List.getElem?_of_mem hi
    have hkl := (List.getElem?_eq_some_iff.1 hki).1
    have hik : i = k * n := by
      rw [hidx] at hkl hki
      rw [List.getElem?_map, List.getElem?_range (by simpa using hkl)] at hki
      exact (Option.some.inj hki).symm
    have hlen : idx.length = F.time.length := by
      conv_lhs => rw [hidx]
      rw [hft]
      simp [fnTimes, movedBack, limited]
    have hpre : F.pre = .points ((List.range idx.length).map fun k => s.vals.map fun v => (pts.map (relTo s.f.corner)).map fun P =>
        cell (Verif.Interp.valueAt sq s.m cen (v.rowD (k * n)) P)) := by
      rw [hop'] at hop
      rw [← Except.ok.inj hop]
    have hi0 : F.index = 0 := by
      rw [hop'] at hop
      rw [← Except.ok.inj hop]
    have hc := call_same F (by rw [hi0, ← hlen]; omega)
      (by
        rw [hft]
        intro a b u v hab hu hv
        rw [thin_get n hn] at hu hv
        exact hr.increasing _ _ u v (Nat.mul_lt_mul_of_pos_right hab hn) hu hv)
      (some p) (by unfold Fn.answers; rw [hpre]; simp)
      (fun k => s.vals.map fun v => cell (Verif.Interp.valueAt sq s.m cen (v.rowD (k * n)) (relTo s.f.corner P)))
      (fun j hj => by
        rw [hpre]
        exact pre_at s.vals (pts.map (relTo s.f.corner)) (fun k v P => cell (Verif.Interp.valueAt sq s.m cen (v.rowD (k * n)) P)) idx.length j p
          (relTo s.f.corner P) (by omega) (by rw [List.getElem?_map, hP]; rfl))
      k (s.T.getD i 0) (by rw [hft, thin_get n hn, ← hik]; exact hget i hi)
    rw [hc hist]
    exact (hc []).symm
  refine ⟨F, ?_, hst, ?_, fun p P hP => ⟨fun hon => ?_, fun hoff i hi hist => (hF p P hP).2.2 hoff hist _ (hcov i hi)⟩⟩
  · unfold fileFunction
    rw [if_neg (by rw [hr.ext]; simp)]
    simp only [Option.getD_some, Option.map_none, hop]
  · rw [hft]
    apply List.ext_getElem?
    intro k
    rw [thin_get n hn, List.getElem?_map]
    cases hki : idx[k]? with
    | some i =>
      have h1 : i = k * n := by
        have hkl := (List.getElem?_eq_some_iff.1 hki).1
        rw [hidx] at hkl hki
        rw [List.getElem?_map, List.getElem?_range (by simpa using hkl)] at hki
        exact (Option.some.inj hki).symm
      rw [← h1]
      exact hget i (List.mem_of_getElem? hki)
    | none =>
      have hl : idx.length ≤ k := List.getElem?_eq_none_iff.1 hki
      rw [hidx] at hl
      have h2 : (thin n s.T)[k]? = none := List.getElem?_eq_none_iff.2 (by simpa [fnTimes, movedBack, limited] using hl)
      rw [thin_get n hn] at h2
      rw [h2]
      rfl
  · obtain ⟨abc, h1, h2⟩ := (hF p P hP).2.1 hon.1 hon.2
    refine ⟨abc, h1, fun i hi => ?_⟩
    obtain ⟨q, h3, h4⟩ := h2 [] _ (hcov i hi)
    refine ⟨q, h4.1, fun hist => ?_, fun k name hk' => ?_⟩
    · exact (hsame p P hP i hi hist).trans ((hsame p P hP i hi []).symm.trans h3)
    · obtain ⟨v, z, a1, a2, a3⟩ := at_stored hr.increasing hk.sorted hin hi (hget i hi) h4 k name hk'
      exact ⟨z, a2, v, a1, a3⟩

/-- One file. -/
theorem one_file {s : Src K} (hr : Reads mk s.f core s.x s.T s.vals s.m s.ts) (hT : s.T ≠ []) (sq : K → K) (hs : IsSqrt sq) (q : Cols K)
    (hq : IsSqrt q.sq) (hex : ∀ n ∈ q.names, n ∈ exported) (cen : Bool) (gauges : List (String × Pt K)) (hnd : (gauges.map Prod.fst).Nodup)
    (hon : ∀ g ∈ gauges, s.On sq g.2 ∨ s.Off sq g.2) :
    ∃ F, fileFunction sq mk s.f none (some core) { points := some (gauges.map Prod.snd), centroids := cen } = .ok (F, none) ∧
      F.starttime = s.f.starttime ∧ ∀ (off : K) (cents : List (Pt K)) (csv0 : String → Option (List (List (Cell K)))), ∃ p : ℕ → List (List (Cell K)),
        (∀ i < (gauges.map Prod.fst).length, Serves q cents off F csv0 (gauges.map Prod.fst) i F.time (p i)) ∧
        ∀ (i : ℕ) (g : String × Pt K), gauges[i]? = some g →
          (s.On sq g.2 ∧ Piece s cen q.bear off q.names g.2 (p i)) ∨ (s.Off sq g.2 ∧ p i = []) := by
  obtain ⟨F, h1, h2, h3, h4⟩ := open_all hr hT sq hs (gauges.map Prod.snd) 1 (by omega) cen (List.range s.T.length) (kept_all s.T _)
  have h3' : F.time = s.T := by
    rw [h3]
    apply List.ext_getElem (by simp)
    intro k a b
    simp [List.getD_eq_getElem?_getD, List.getElem?_eq_getElem b]
  refine ⟨F, h1, h2, fun off cents csv0 => ?_⟩
  have key : ∀ i : ℕ, ∃ p, i < (gauges.map Prod.fst).length → Serves q cents off F csv0 (gauges.map Prod.fst) i F.time p ∧
      ∀ g : String × Pt K, gauges[i]? = some g → (s.On sq g.2 ∧ Piece s cen q.bear off q.names g.2 p) ∨ (s.Off sq g.2 ∧ p = []) := by
    intro i
    by_cases hil : i < (gauges.map Prod.fst).length
    swap
    · exact ⟨[], fun h => absurd h hil⟩
    have hil' : i < gauges.length := by simpa using hil
    have hgi : gauges[i]? = some gauges[i] := List.getElem?_eq_getElem hil'
    have hPi : (gauges.map Prod.snd)[i]? = some gauges[i].2 := by rw [List.getElem?_map, hgi]; rfl
    obtain ⟨g1, g2⟩ := h4 i _ hPi
    have hmem : ∀ t ∈ F.time, ∃ k, s.T[k]? = some t ∧ k ∈ List.range s.T.length ∧ s.T.getD k 0 = t := by
      intro t ht
      rw [h3'] at ht
      obtain ⟨k, hk⟩ := List.getElem?_of_mem ht
      exact ⟨k, hk, List.mem_range.2 (List.getElem?_eq_some_iff.1 hk).1, by rw [List.getD_eq_getElem?_getD, hk]; rfl⟩
    rcases hon _ (List.getElem_mem hil') with hh | hh
    · obtain ⟨abc, k1, k2⟩ := g1 hh
      have hrow : ∀ t : K, ∃ row, ∀ k, s.T[k]? = some t → ∃ w z uh vh cs, (∀ hist,
          ((F.after hist).call t (some i)).map Prod.snd = .ok [.num w, .num z, .num uh, .num vh]) ∧
          columns q.sq q.bear cents i w z uh vh q.names = some cs ∧ row = .num (t + off) :: .num ((t + off) / 3600) :: cs ∧
          s.At cen abc gauges[i].2 k "stage" w ∧ s.At cen abc gauges[i].2 k "elevation" z ∧ s.At cen abc gauges[i].2 k "xmomentum" uh ∧
          s.At cen abc gauges[i].2 k "ymomentum" vh ∧ cs.length = q.names.length ∧
          ∀ (n : ℕ) (nm : String), q.names[n]? = some nm → ∃ c, cs[n]? = some c ∧ Entry q.bear w z uh vh nm c := by
        intro t
        by_cases ht : t ∈ s.T
        swap
        · exact ⟨[], fun k hk => absurd (List.mem_of_getElem? hk) ht⟩
        obtain ⟨k, hk⟩ := List.getElem?_of_mem ht
        have hkl := (List.getElem?_eq_some_iff.1 hk).1
        have hkd : s.T.getD k 0 = t := by rw [List.getD_eq_getElem?_getD, hk]; rfl
        obtain ⟨v, l1, l2, l3⟩ := k2 k (List.mem_range.2 hkl)
        rw [hkd] at l2
        obtain ⟨w, w1, w2⟩ := l3 0 "stage" rfl
        obtain ⟨z, z1, z2⟩ := l3 1 "elevation" rfl
        obtain ⟨uh, u1, u2⟩ := l3 2 "xmomentum" rfl
        obtain ⟨vh, v1, v2⟩ := l3 3 "ymomentum" rfl
        have hv : v = [w, z, uh, vh] := by
          have hl : v.length = 4 := l1
          match v, hl with
          | [a, b, c, d], _ =>
            simp at w1 z1 u1 v1
            rw [w1, z1, u1, v1]
        obtain ⟨cs, c1, c2, c3⟩ := columns_entry q.sq hq q.bear cents i w z uh vh q.names hex
        refine ⟨.num (t + off) :: .num ((t + off) / 3600) :: cs, fun k' hk' => ?_⟩
        have hkk : k' = k := by
          rcases lt_trichotomy k' k with h | h | h
          · exact absurd (hr.increasing _ _ _ _ h hk' hk) (lt_irrefl _)
          · exact h
          · exact absurd (hr.increasing _ _ _ _ h hk hk') (lt_irrefl _)
        subst hkk
        refine ⟨w, z, uh, vh, cs, fun hist => ?_, c1, rfl, w2, z2, u2, v2, c2, c3⟩
        rw [l2 hist, hv]
        rfl
      choose row hrow using hrow
      refine ⟨F.time.map row, fun _ => ⟨serves_on q cents off F csv0 _ hnd i F.time row fun t ht => ?_, fun g hg => ?_⟩⟩
      · obtain ⟨k, hk, -, -⟩ := hmem t ht
        obtain ⟨w, z, uh, vh, cs, r1, r2, r3, -⟩ := hrow t k hk
        exact ⟨w, z, uh, vh, r1, cs, r2, r3⟩
      · rw [hgi] at hg
        obtain rfl := Option.some.inj hg
        refine Or.inl ⟨hh, abc, k1, by rw [h3']; simp, fun k t hk => ?_⟩
        obtain ⟨w, z, uh, vh, cs, r1, r2, r3, r4, r5, r6, r7, r8, r9⟩ := hrow t k hk
        exact ⟨w, z, uh, vh, cs, r4, r5, r6, r7, r8, r9, by rw [h3', List.getElem?_map, hk, Option.map_some, r3]⟩
    · refine ⟨[], fun _ => ⟨serves_off q cents off F csv0 _ i F.time fun t ht hist => ?_, fun g hg => ?_⟩⟩
      · obtain ⟨k, -, hk, hkd⟩ := hmem t ht
        have := g2 hh k hk hist
        rw [hkd] at this
        exact ⟨_, this⟩
      · rw [hgi] at hg
        obtain rfl := Option.some.inj hg
        exact Or.inr ⟨hh, rfl⟩
  choose p hp using key
  exact ⟨p, fun i hi => (hp i hi).1, fun i g hg => (hp i (by simpa using (List.getElem?_eq_some_iff.1 hg).1)).2 g hg⟩

/-- The files from a given state on. -/
theorem files_spec (sq : K → K) (hs : IsSqrt sq) (q : Cols K) (hq : IsSqrt q.sq) (hex : ∀ n ∈ q.names, n ∈ exported) (cen : Bool)
    (gauges : List (String × Pt K)) (hnd : (gauges.map Prod.fst).Nodup) (csv0 : String → Option (List (List (Cell K)))) :
    ∀ (srcs : List (Src K)), (∀ s ∈ srcs, Reads mk s.f core s.x s.T s.vals s.m s.ts ∧ s.T ≠ [] ∧ ∀ g ∈ gauges, s.On sq g.2 ∨ s.Off sq g.2) →
    ∀ (offset : Option K) (off : K), (offset = some off ∨ offset = none ∧ ∀ s ∈ srcs.head?, s.f.starttime = off) → ∀ o R,
      Inv csv0 (gauges.map Prod.fst) o R → ∃ o' R', overFiles sq mk q cen gauges offset o (srcs.map Src.f) = .ok o' ∧
        Inv csv0 (gauges.map Prod.fst) o' R' ∧ ∀ (i : ℕ) (g : String × Pt K), gauges[i]? = some g → ∃ pieces : List (List (List (Cell K))),
          R' i = R i ++ pieces.flatten ∧ pieces.length = srcs.length ∧ ∀ (k : ℕ) (s : Src K) (p : List (List (Cell K))), srcs[k]? = some s →
            pieces[k]? = some p → (s.On sq g.2 ∧ Piece s cen q.bear off q.names g.2 p) ∨ (s.Off sq g.2 ∧ p = []) := by
  intro srcs
  induction srcs with
  | nil =>
    intro _ offset off _ o R hR
    exact ⟨o, R, rfl, hR, fun i g _ => ⟨[], by simp, rfl, by simp⟩⟩
  | cons s ss ih =>
    intro h offset off hoff o R hR
    obtain ⟨hr, hT, hon⟩ := h s (by simp)
    obtain ⟨F, h1, h2, h3⟩ := one_file hr hT sq hs q hq hex cen gauges hnd hon
    have hgd : offset.getD F.starttime = off := by
      rcases hoff with rfl | ⟨rfl, h5⟩
      · rfl
      · rw [Option.getD_none, h2]
        exact h5 s (by simp)
    set cents : List (Pt K) := centsOf sq mk cen s.f (gauges.map Prod.snd) with hcents
    obtain ⟨p, p1, p2⟩ := h3 off cents csv0
    obtain ⟨o1, o2, o3⟩ := overGauges_spec q cents off F csv0 (gauges.map Prod.fst) F.time p p1 (gauges.map Prod.fst) 0 rfl [] o R hR
    obtain ⟨o', R', r1, r2, r3⟩ := ih (fun t ht => h t (by simp [ht])) (some off) off (Or.inl rfl) o1 _ o3
    refine ⟨o', R', ?_, r2, fun i g hg => ?_⟩
    · rw [List.map_cons]
      unfold overFiles
      rw [h1]
      simp only
      rw [hgd, ← hcents]
      rw [show F.after [] = F from rfl] at o2
      rw [o2]
      exact r1
    · obtain ⟨pieces, q1, q2, q3⟩ := r3 i g hg
      refine ⟨p i :: pieces, ?_, by simp [q2], ?_⟩
      · rw [q1]
        simp
      · intro k t x hk hx
        cases k with
        | zero =>
          simp at hk hx
          subst hk hx
          exact p2 i g hg
        | succ k => exact q3 k t x (by simpa using hk) (by simpa using hx)

/-- **C98.** Series at gauges: each gauge that lies in the mesh of at least one of the result files gets a csv file of its name with the rows from
these files one after the other, and nothing else; gauges off the mesh, and csv files of other names, are left as they were. The time is counted from
the start of the first file. -/
theorem C98_csv (sq : K → K) (hs : IsSqrt sq) (q : Cols K) (hq : IsSqrt q.sq) (hex : ∀ n ∈ q.names.map String.toLower, n ∈ exported) (cen : Bool)
    (gauges : List (String × Pt K)) (hnd : (gauges.map Prod.fst).Nodup) (base : String) (dir : List (String × File K))
    (csv : String → Option (List (List (Cell K)))) (s0 : Src K) (srcs : List (Src K))
    (hdir : (sortedSww base dir).map Prod.snd = (s0 :: srcs).map Src.f)
    (hsrc : ∀ s ∈ s0 :: srcs, Reads mk s.f core s.x s.T s.vals s.m s.ts ∧ s.T ≠ [] ∧ ∀ g ∈ gauges, s.On sq g.2 ∨ s.Off sq g.2) :
    ∃ o, sww2csv sq mk q cen gauges base dir csv = .ok o ∧ (∀ name, name ∉ gauges.map Prod.fst → o.csv name = csv name) ∧
      ∀ g ∈ gauges, ∃ pieces : List (List (List (Cell K))), pieces.length = (s0 :: srcs).length ∧
        (∀ (k : ℕ) (s : Src K) (p : List (List (Cell K))), (s0 :: srcs)[k]? = some s → pieces[k]? = some p →
          (s.On sq g.2 ∧ Piece s cen q.bear s0.f.starttime (q.names.map String.toLower) g.2 p) ∨ (s.Off sq g.2 ∧ p = [])) ∧
        o.csv g.1 = if pieces.flatten = [] then csv g.1 else some pieces.flatten := by
  obtain ⟨o, R, h1, h2, h3⟩ := files_spec (mk := mk) sq hs { q with names := q.names.map String.toLower } hq hex cen gauges hnd csv (s0 :: srcs) hsrc none
    s0.f.starttime (Or.inr ⟨rfl, by simp⟩) ⟨csv, fun _ => false⟩ (fun _ => []) ⟨fun i s _ => ⟨fun _ => ⟨rfl, rfl⟩, fun h => absurd rfl h⟩, fun _ _ => rfl⟩
  refine ⟨o, ?_, h2.2, fun g hg => ?_⟩
  · unfold sww2csv
    cases hso : sortedSww base dir with
    | nil => rw [hso] at hdir; simp at hdir
    | cons a as =>
      simp only
      rw [hso] at hdir
      rw [hdir]
      exact h1
  · obtain ⟨i, hi⟩ := List.getElem?_of_mem hg
    obtain ⟨pieces, k1, k2, k3⟩ := h3 i g hi
    refine ⟨pieces, k2, k3, ?_⟩
    obtain ⟨m1, m2⟩ := h2.1 i g.1 (by rw [List.getElem?_map, hi]; rfl)
    rw [List.nil_append] at k1
    rw [← k1]
    split_ifs with hR
    · exact (m1 hR).2
    · exact (m2 hR).2

/-- **C98.** The result files taken: all of the directory whose name contains the base name and ends with `.sww`, each once, in the order of
their names. -/
theorem C98_files (base : String) (dir : List (String × File K)) :
    (∃ l : List (String × File K), List.Perm (sortedSww base dir) l ∧ l.Sublist dir ∧ ∀ x ∈ dir, x ∈ l ↔
      (∃ a b, x.1 = a ++ base ++ b) ∧ ∃ a, x.1 = a ++ ".sww") ∧
    (sortedSww base dir).Pairwise fun a b => ∀ u v, a.1 = u ++ ".sww" → b.1 = v ++ ".sww" → u.toList ≤ v.toList := by
  refine ⟨⟨allSww base dir, List.perm_insertionSort _ _, List.filter_sublist, fun x hx => ?_⟩, ?_⟩
  · unfold allSww
    simp only [List.mem_filter, hx, true_and, Bool.and_eq_true, decide_eq_true_eq]
    constructor
    · rintro ⟨⟨a, b, h⟩, c, h'⟩
      refine ⟨⟨String.ofList a, String.ofList b, ?_⟩, String.ofList c, ?_⟩
      · apply String.toList_injective
        simp [← h]
      · apply String.toList_injective
        simp [← h']
    · rintro ⟨⟨a, b, h⟩, c, h'⟩
      exact ⟨⟨a.toList, b.toList, by rw [h]; simp⟩, c.toList, by rw [h']; simp⟩
  · have : Std.Total fun a b : String × File K => stem a.1 ≤ stem b.1 := ⟨fun a b => List.le_total _ _⟩
    have : IsTrans (String × File K) fun a b => stem a.1 ≤ stem b.1 := ⟨fun a b c => List.le_trans⟩
    refine (List.pairwise_insertionSort (fun a b : String × File K => stem a.1 ≤ stem b.1) _).imp fun {a b} h u v hu hv => ?_
    have hst : ∀ w : String, stem (w ++ ".sww") = w.toList := by
      intro w
      unfold stem
      simp
    rw [hu, hv, hst, hst] at h
    exact h

end Verif.Gauge
