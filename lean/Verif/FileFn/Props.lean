import Verif.FileFn.Lemmas
import Mathlib.Data.List.Nodup
import Mathlib.Data.List.Perm.Basic
import Mathlib.Data.List.Sort

/-! # C97: functions read from result files -/

namespace Verif.FileFn

set_option linter.unusedSectionVars false

open Verif.Polygon (Pt shift InTri OnSeg Flat Side IsSqrt isInsidePolygon)
open Verif.Interp (PlaneThrough LineThrough StrictlyIncreasing Mesh Obj thin monotone goUp goDown valueAt Fits thin_get isChain_increasing)
open Verif.Quad (Tri Covers Almost)

variable {K : Type*} [Field K] [LinearOrder K] [IsStrictOrderedRing K]

variable {mk : List (Pt K) → List (ℕ × ℕ × ℕ) → Option (Mesh K)} {f : File K} {names : List String} {x : List (Pt K)} {T : List K}
  {vals : List (Var K)} {m : Mesh K} {ts : List (Tri K)}

/-! ## Times -/

/-- The times up to the limit. -/
theorem cut_get (hT : StrictlyIncreasing T) (start : K) (limit : Option K) (i : ℕ) (t : K) :
    (limited start limit T)[i]? = some t ↔ T[i]? = some t ∧ ∀ l ∈ limit, t + start ≤ l := by
  unfold limited
  cases limit with
  | none => simp
  | some l =>
    simp only
    rw [upTo_get _ T hT]
    refine and_congr Iff.rfl ?_
    simp only [Option.mem_def, Option.some.injEq, forall_eq']
    exact le_sub_iff_add_le

/-- The times of the function. -/
def fnTimes (T : List K) (start : K) (limit d : Option K) : List K :=
  movedBack start d (limited start limit T)

theorem fnTimes_get (hT : StrictlyIncreasing T) (limit d : Option K) (i : ℕ) (s : K) :
    (fnTimes T f.starttime limit d)[i]? = some s ↔
      T[i]? = some (s + origin f d - f.starttime) ∧ ∀ l ∈ limit, s + origin f d ≤ l := by
  unfold fnTimes movedBack
  have h0 := cut_get hT f.starttime limit i
  generalize hc : limited f.starttime limit T = C at h0 ⊢
  cases d with
  | none =>
    simp only [origin]
    rw [h0, add_sub_cancel_right]
  | some d =>
    simp only [origin]
    by_cases h : d > f.starttime
    · rw [if_pos h, max_eq_left h.le, List.getElem?_map]
      constructor
      · intro h1
        obtain ⟨t, h2, rfl⟩ := Option.map_eq_some_iff.1 h1
        obtain ⟨h3, h4⟩ := (h0 t).1 h2
        have e : t - d + f.starttime + d - f.starttime = t := by ring
        rw [e]
        refine ⟨h3, fun l hl => ?_⟩
        have := h4 l hl
        linarith
      · rintro ⟨h1, h2⟩
        rw [Option.map_eq_some_iff]
        refine ⟨s + d - f.starttime, (h0 _).2 ⟨h1, fun l hl => ?_⟩, by ring⟩
        have := h2 l hl
        linarith
    · rw [if_neg h, max_eq_right (not_lt.1 h), h0, add_sub_cancel_right]

theorem fnTimes_increasing (hT : StrictlyIncreasing T) (limit d : Option K) : StrictlyIncreasing (fnTimes T f.starttime limit d) := by
  intro i j a b hij ha hb
  rw [fnTimes_get hT] at ha hb
  have := hT i j _ _ hij ha.1 hb.1
  linarith

/-- The kept times are the multiples of the thinning. -/
theorem kept_eq (hT : StrictlyIncreasing T) (n : ℕ) (hn : 0 < n) (limit d : Option K) (idx : List ℕ) (hk : Kept T f.starttime n limit idx) :
    idx = (List.range (thin n (fnTimes T f.starttime limit d)).length).map (· * n) := by
  have hmem : ∀ i, i ∈ idx ↔ i ∈ (List.range (thin n (fnTimes T f.starttime limit d)).length).map (· * n) := by
    intro i
    rw [hk.mem, List.mem_map]
    constructor
    · rintro ⟨t, h1, ⟨k, rfl⟩, h3⟩
      refine ⟨k, ?_, Nat.mul_comm k n⟩
      rw [List.mem_range]
      have h4 : (thin n (fnTimes T f.starttime limit d))[k]? = some (t + f.starttime - origin f d) := by
        rw [thin_get n hn, fnTimes_get hT, Nat.mul_comm k n]
        refine ⟨by rw [h1]; congr 1; ring, fun l hl => ?_⟩
        have := h3 l hl
        linarith
      exact (List.getElem?_eq_some_iff.1 h4).1
    · rintro ⟨k, h1, rfl⟩
      rw [List.mem_range] at h1
      have h2 : (thin n (fnTimes T f.starttime limit d))[k]? = some _ := List.getElem?_eq_getElem h1
      rw [thin_get n hn, fnTimes_get hT] at h2
      refine ⟨_, h2.1, Dvd.intro_left k rfl, fun l hl => ?_⟩
      have := h2.2 l hl
      linarith
  have hs2 : ((List.range (thin n (fnTimes T f.starttime limit d)).length).map (· * n)).Pairwise (· < ·) := by
    rw [List.pairwise_map]
    exact List.pairwise_lt_range.imp fun h => Nat.mul_lt_mul_of_pos_right h hn
  have hperm := (List.perm_ext_iff_of_nodup (hk.sorted.imp fun h => Nat.ne_of_lt h) (hs2.imp fun h => Nat.ne_of_lt h)).2 hmem
  exact hperm.eq_of_pairwise (fun a b _ _ h1 h2 => absurd h1 (Nat.lt_asymm h2)) hk.sorted hs2

/-! ## Opening -/

theorem mapM_get {α β : Type*} {g : α → Option β} : ∀ {l : List α} {r : List β}, l.mapM g = some r →
    l.length = r.length ∧ ∀ (k : ℕ) (a : α), l[k]? = some a → ∃ b, r[k]? = some b ∧ g a = some b := by
  intro l
  induction l with
  | nil => intro r h; simp at h; subst h; simp
  | cons a l ih =>
    intro r h
    rw [List.mapM_cons] at h
    cases hg : g a with
    | none => rw [hg] at h; simp at h
    | some b =>
      cases hl : l.mapM g with
      | none => rw [hg, hl] at h; simp at h
      | some r' =>
        rw [hg, hl] at h
        obtain rfl : b :: r' = r := by simpa using h
        obtain ⟨h1, h2⟩ := ih hl
        refine ⟨by simp [h1], fun k c hk => ?_⟩
        cases k with
        | zero => simp at hk; subst hk; exact ⟨b, rfl, hg⟩
        | succ k => simpa using h2 k c hk

/-- What opening such a file gives. -/
theorem open_spec (hr : Reads mk f names x T vals m ts) (sq : K → K) (d : Option K) (o : Opts K) (pts : List (Pt K)) (hp : o.points = some pts)
    (hrel : o.relative = true) (hn : 0 < o.thinning) (idx : List ℕ) (hk : Kept T f.starttime o.thinning o.limit idx) (hne : idx ≠ []) :
    open' sq mk f names d o = .ok ⟨thin o.thinning (fnTimes T f.starttime o.limit d), 0,
      .points ((List.range idx.length).map fun k => vals.map fun v => (pts.map (relTo f.corner)).map fun P =>
        cell (valueAt sq m o.centroids (v.rowD (k * o.thinning)) P)), f.starttime⟩ := by
  have hidx := kept_eq (d := d) hr.increasing o.thinning hn o.limit idx hk
  have hlen : idx.length = (thin o.thinning (fnTimes T f.starttime o.limit d)).length := by
    conv_lhs => rw [hidx]
    simp
  obtain ⟨i0, hi0⟩ := List.exists_mem_of_ne_nil idx hne
  obtain ⟨t0, h1, -, h3⟩ := (hk.mem i0).1 hi0
  have hT0 : T ≠ [] := by rintro rfl; simp at h1
  have hcut : limited f.starttime o.limit T ≠ [] := by
    intro h
    have := (cut_get hr.increasing f.starttime o.limit i0 t0).2 ⟨h1, h3⟩
    rw [h] at this
    simp at this
  have hmono : monotone (fnTimes T f.starttime o.limit d) = true := by
    unfold monotone
    rw [decide_eq_true_eq, isChain_increasing]
    exact fun i a b ha hb => (fnTimes_increasing hr.increasing o.limit d i (i + 1) a b (by omega) ha hb).le
  have hmake : Fn.make sq mk (fnTimes T f.starttime o.limit d) vals (some (x, f.tris)) (some (pts.map (relTo f.corner))) o.thinning o.centroids
      f.starttime = .ok ⟨thin o.thinning (fnTimes T f.starttime o.limit d), 0,
      .points ((List.range idx.length).map fun k => vals.map fun v => (pts.map (relTo f.corner)).map fun P =>
        cell (valueAt sq m o.centroids (v.rowD (k * o.thinning)) P)), f.starttime⟩ := by
    unfold Fn.make
    rw [if_neg (by rw [hmono]; simp)]
    simp only
    rw [hr.make]
    simp only
    rw [overTimes_spec hr.fits sq (pts.map (relTo f.corner)) 500000 o.centroids o.thinning T.length hn vals
      (fun v hv => by rw [hr.nodes]; exact hr.shaped v hv) _ ?_ (Obj.new m) rfl]
    · simp only
      rw [hlen]
    · intro k hk'
      rw [List.mem_range] at hk'
      have h2 : (thin o.thinning (fnTimes T f.starttime o.limit d))[k]? = some _ := List.getElem?_eq_getElem hk'
      rw [thin_get _ hn, fnTimes_get hr.increasing] at h2
      exact (List.getElem?_eq_some_iff.1 h2.1).1
  unfold open'
  rw [if_neg hr.some_names, hr.time, hr.vars]
  simp only
  rw [hr.ext, hr.coords]
  simp only [hrel, if_true]
  rw [if_neg (by simp), if_neg (by simp), if_neg hT0, if_neg hcut, hp]
  exact hmake

/-- **C97.** A result file opened as a function gives, at every absolute position inside its mesh and every absolute time that it covers, the value
that is linear in space over a triangle at that position and linear in time between the stored results (every `time_thinning`-th, none after
`time_limit`), for each quantity in the order asked for, whatever calls were made before. Times are counted from the start of the file, or from
the start of the domain if that is later. Earlier and later times are refused. At a point off the mesh every value is `NAN`. -/
theorem C97_value (hr : Reads mk f names x T vals m ts) (sq : K → K) (hs : IsSqrt sq) (d : Option K) (o : Opts K) (pts : List (Pt K))
    (hp : o.points = some pts) (hrel : o.relative = true) (hn : 0 < o.thinning) (idx : List ℕ)
    (hk : Kept T f.starttime o.thinning o.limit idx) (hne : idx ≠ []) :
    ∃ F, open' sq mk f names d o = .ok F ∧ F.starttime = f.starttime ∧ ∀ (p : ℕ) (P : Pt K), pts[p]? = some P →
      (∀ (hist : List (K × Option ℕ)) (t : K), ((∀ i ∈ idx, t + origin f d < T.getD i 0 + f.starttime) → (F.after hist).call t (some p) = .error .early) ∧
        ((∀ i ∈ idx, T.getD i 0 + f.starttime < t + origin f d) → (F.after hist).call t (some p) = .error .late)) ∧
      (isInsidePolygon sq true (relTo f.corner P) m.boundary = some true → (∃ s ∈ ts, Covers (moved f.corner s) P) →
        ∃ abc, Around f x abc P ∧ ∀ (hist : List (K × Option ℕ)) (t : K), Covered f T idx (t + origin f d) → ∃ q : List K,
          ((F.after hist).call t (some p)).map Prod.snd = .ok (q.map .num) ∧ Shows f x T names o.centroids idx abc P (t + origin f d) q) ∧
      ((isInsidePolygon sq true (relTo f.corner P) m.boundary ≠ some true ∨ ∀ s ∈ ts, ¬ Almost (moved f.corner s) P) →
        ∀ (hist : List (K × Option ℕ)) (t : K), Covered f T idx (t + origin f d) →
          ((F.after hist).call t (some p)).map Prod.snd = .ok (names.map fun _ => .inf)) := by
  have hop := open_spec hr sq d o pts hp hrel hn idx hk hne
  have hidx := kept_eq (d := d) hr.increasing o.thinning hn o.limit idx hk
  set tt := thin o.thinning (fnTimes T f.starttime o.limit d) with htt
  have hlen : idx.length = tt.length := by
    conv_lhs => rw [hidx]
    simp
  have hlen0 : 0 < tt.length := by rw [← hlen]; exact List.length_pos_of_ne_nil hne
  -- entries
  have hget : ∀ (k : ℕ) (s : K), tt[k]? = some s → idx[k]? = some (k * o.thinning) ∧ T.getD (k * o.thinning) 0 + f.starttime = s + origin f d := by
    intro k s h
    have hkl := (List.getElem?_eq_some_iff.1 h).1
    refine ⟨by rw [hidx, List.getElem?_map, List.getElem?_range hkl]; rfl, ?_⟩
    rw [htt, thin_get _ hn, fnTimes_get hr.increasing] at h
    rw [List.getD_eq_getElem?_getD, h.1, Option.getD_some]
    ring
  have hidx_get : ∀ (k i : ℕ), idx[k]? = some i → i = k * o.thinning ∧ k < tt.length := by
    intro k i h
    have hkl : k < tt.length := by rw [← hlen]; exact (List.getElem?_eq_some_iff.1 h).1
    rw [hidx, List.getElem?_map, List.getElem?_range hkl] at h
    exact ⟨(Option.some.inj h).symm, hkl⟩
  have hincr : Verif.Interp.Increasing tt := by
    intro i j a b hij ha hb
    rw [htt, thin_get _ hn] at ha hb
    exact (fnTimes_increasing hr.increasing o.limit d).le _ _ a b (Nat.mul_le_mul_right _ hij) ha hb
  have hfirst : tt.head? = some tt[0] := by rw [List.head?_eq_getElem?, List.getElem?_eq_getElem hlen0]
  have hlast : tt.getLast? = some (tt[tt.length - 1]'(by omega)) := by rw [List.getLast?_eq_getElem?, List.getElem?_eq_getElem (by omega)]
  have hmemfirst : ∀ i ∈ idx, tt[0] + origin f d ≤ T.getD i 0 + f.starttime := by
    intro i hi
    obtain ⟨k, hk'⟩ := List.getElem?_of_mem hi
    obtain ⟨rfl, hkl⟩ := hidx_get k i hk'
    have h1 : tt[k]? = some tt[k] := List.getElem?_eq_getElem hkl
    rw [(hget k _ h1).2]
    have := hincr 0 k _ _ (by omega) (List.getElem?_eq_getElem hlen0) h1
    linarith
  have hmemlast : ∀ i ∈ idx, T.getD i 0 + f.starttime ≤ (tt[tt.length - 1]'(by omega)) + origin f d := by
    intro i hi
    obtain ⟨k, hk'⟩ := List.getElem?_of_mem hi
    obtain ⟨rfl, hkl⟩ := hidx_get k i hk'
    have h1 : tt[k]? = some tt[k] := List.getElem?_eq_getElem hkl
    rw [(hget k _ h1).2]
    have := hincr k (tt.length - 1) _ _ (by omega) h1 (List.getElem?_eq_getElem (by omega))
    linarith
  have hin0 : ∃ i ∈ idx, T.getD i 0 + f.starttime = tt[0] + origin f d := by
    obtain ⟨h1, h2⟩ := hget 0 _ (List.getElem?_eq_getElem hlen0)
    exact ⟨_, List.mem_of_getElem? h1, h2⟩
  have hin1 : ∃ i ∈ idx, T.getD i 0 + f.starttime = (tt[tt.length - 1]'(by omega)) + origin f d := by
    obtain ⟨h1, h2⟩ := hget (tt.length - 1) _ (List.getElem?_eq_getElem (by omega))
    exact ⟨_, List.mem_of_getElem? h1, h2⟩
  refine ⟨_, hop, rfl, fun p P hP => ?_⟩
  set F : Fn K := ⟨tt, 0, .points ((List.range idx.length).map fun k => vals.map fun v => (pts.map (relTo f.corner)).map fun P =>
        cell (valueAt sq m o.centroids (v.rowD (k * o.thinning)) P)), f.starttime⟩ with hF
  have hafter := fun hist => after_keeps hist F (show 0 < tt.length from hlen0)
  have slot := fun (hist : List (K × Option ℕ)) (t : K) => call_slot (F.after hist)
    (by obtain ⟨i, e, hi⟩ := hafter hist; rw [e]; exact hi) (some p)
    (by obtain ⟨i, e, hi⟩ := hafter hist; rw [e]; exact trivial) tt[0] (tt[tt.length - 1]'(by omega))
    (by obtain ⟨i, e, hi⟩ := hafter hist; rw [e]; exact hfirst) (by obtain ⟨i, e, hi⟩ := hafter hist; rw [e]; exact hlast) t
  have htime : ∀ hist, (F.after hist).time = tt := fun hist => by obtain ⟨i, e, hi⟩ := hafter hist; rw [e]
  have hpre : ∀ hist, (F.after hist).pre = F.pre := fun hist => by obtain ⟨i, e, hi⟩ := hafter hist; rw [e]
  have hP' : (pts.map (relTo f.corner))[p]? = some (relTo f.corner P) := by rw [List.getElem?_map, hP]; rfl
  have hat : ∀ k < tt.length, F.pre.at (some p) k =
      some (vals.map fun v => cell (valueAt sq m o.centroids (v.rowD (k * o.thinning)) (relTo f.corner P))) := by
    intro k hkl
    exact pre_at vals (pts.map (relTo f.corner)) (fun k v P => cell (valueAt sq m o.centroids (v.rowD (k * o.thinning)) P)) idx.length k p
      (relTo f.corner P) (by rw [hlen]; exact hkl) hP'
  obtain ⟨hnl, hnv⟩ := mapM_get hr.vars
  have range1 : ∀ t, (∃ i ∈ idx, T.getD i 0 + f.starttime ≤ t + origin f d) → tt[0] ≤ t := by
    rintro t ⟨i, hi, h⟩
    have := hmemfirst i hi
    linarith
  have range2 : ∀ t, (∃ i ∈ idx, t + origin f d ≤ T.getD i 0 + f.starttime) → t ≤ (tt[tt.length - 1]'(by omega)) := by
    rintro t ⟨i, hi, h⟩
    have := hmemlast i hi
    linarith
  refine ⟨fun hist t => ⟨fun h => ?_, fun h => ?_⟩, fun hin hcov => ?_, fun hout hist t ⟨h1, h2⟩ => ?_⟩
  · obtain ⟨i, hi, e⟩ := hin0
    have := h i hi
    exact (slot hist t).1 (by linarith)
  · obtain ⟨i, hi, e⟩ := hin1
    have h3 := h i hi
    obtain ⟨j, hj, e'⟩ := hin0
    have h4 := h j hj
    exact (slot hist t).2.1 (by linarith) (by linarith)
  · -- a triangle is found
    obtain ⟨s0, hs0, hc0⟩ := hcov
    obtain ⟨fuel, root, hT⟩ := hr.fits.tree
    obtain ⟨s, hsr⟩ := Verif.Quad.C27_complete fuel root ts m.tree hT (relTo f.corner P) s0 hs0 (covers_shift.2 hc0)
    obtain ⟨k1, k2⟩ := Verif.Interp.search_mem hr.fits hsr
    obtain ⟨b0, -, -, -, e1, e2, e3, -⟩ := Verif.Interp.tri_of_fits hr.fits k1
    obtain ⟨w1, w2, w3, -⟩ := Verif.Quad.C27_weights sq hs s (hr.fits.proper s k1) (relTo f.corner P)
    have hflat := hr.fits.proper s k1
    have hval : ∀ row : List K, ∃ y, valueAt sq m o.centroids row (relTo f.corner P) = some y ∧
        InSpace o.centroids (absNode x f.corner (m.tri s.index).1) (absNode x f.corner (m.tri s.index).2.1) (absNode x f.corner (m.tri s.index).2.2)
          (row.getD (m.tri s.index).1 0) (row.getD (m.tri s.index).2.1 0) (row.getD (m.tri s.index).2.2 0) P y := by
      intro row
      refine ⟨_, by unfold valueAt; rw [if_pos hin, hsr], ?_⟩
      unfold InSpace Verif.Interp.weights
      cases o.centroids with
      | true => simp only [if_true]; ring
      | false =>
        simp only [Bool.false_eq_true, if_false]
        obtain ⟨al, be, ga, p1, p2, p3⟩ := Verif.Interp.plane_exists hflat (row.getD (m.tri s.index).1 0) (row.getD (m.tri s.index).2.1 0)
          (row.getD (m.tri s.index).2.2 0)
        have hpl : PlaneThrough s.a s.b s.c (row.getD (m.tri s.index).1 0) (row.getD (m.tri s.index).2.1 0) (row.getD (m.tri s.index).2.2 0)
            (relTo f.corner P) (al + be * (relTo f.corner P).x + ga * (relTo f.corner P).y) := ⟨al, be, ga, p1, p2, p3, rfl⟩
        have hpl' := plane_shift hpl
        rw [e1, e2, e3] at hpl'
        rw [← p1, ← p2, ← p3, Verif.Interp.plane_weights w1 w2 w3 al be ga, p1, p2, p3]
        exact hpl'
    choose g hg1 hg2 using hval
    refine ⟨m.tri s.index, ⟨s.index, ?_, ?_⟩, fun hist t ⟨h1, h2⟩ => ?_⟩
    · rw [← hr.tris]
      exact b0
    · have := almost_shift k2
      unfold moved at this
      rw [e1, e2, e3] at this
      exact this
    · have hcell : ∀ k < tt.length, F.pre.at (some p) k = some (vals.map fun v => .num (g (v.rowD (k * o.thinning)))) := by
        intro k hkl
        rw [hat k hkl]
        congr 1
        apply List.map_congr_left
        intro v _
        rw [hg1]
        rfl
      obtain ⟨j, hj, hcase⟩ := (slot hist t).2.2 (range1 t h1) (range2 t h2)
      rw [htime] at hj
      simp only [htime, hpre] at hcase
      -- the series of values in space
      have hV : ∀ v : Var K, (idx.map fun i => g (v.rowD i)).length = idx.length ∧ ∀ j i : ℕ, idx[j]? = some i →
          ∃ y, (idx.map fun i => g (v.rowD i))[j]? = some y ∧ InSpace o.centroids (absNode x f.corner (m.tri s.index).1)
            (absNode x f.corner (m.tri s.index).2.1) (absNode x f.corner (m.tri s.index).2.2) (v.value i (m.tri s.index).1)
            (v.value i (m.tri s.index).2.1) (v.value i (m.tri s.index).2.2) P y := by
        intro v
        refine ⟨by simp, fun j i hji => ⟨g (v.rowD i), by rw [List.getElem?_map, hji]; rfl, ?_⟩⟩
        have := hg2 (v.rowD i)
        rw [rowD_value, rowD_value, rowD_value] at this
        exact this
      have habs : ∀ (k : ℕ) (u : K), tt[k]? = some u → (absTimes T f.starttime idx)[k]? = some (u + origin f d) := by
        intro k u hu
        obtain ⟨q1, q2⟩ := hget k u hu
        unfold absTimes
        rw [List.getElem?_map, q1, Option.map_some, q2]
      have hVk : ∀ (v : Var K) (k : ℕ) (u : K), tt[k]? = some u → (idx.map fun i => g (v.rowD i))[k]? = some (g (v.rowD (k * o.thinning))) := by
        intro v k u hu
        rw [List.getElem?_map, (hget k u hu).1]
        rfl
      rcases hcase with ⟨c1, c2⟩ | ⟨a, b, c1, c2, c3, c4, c5⟩
      · refine ⟨vals.map fun v => g (v.rowD (j * o.thinning)), ?_, by simp [hnl], fun n name hnm => ?_⟩
        · rw [c2 _ (hcell j hj)]
          simp [Except.map]
        · obtain ⟨v, hv1, hv2⟩ := hnv n name hnm
          refine ⟨v, _, hv2, by rw [List.getElem?_map, hv1]; rfl, _, (hV v).1, (hV v).2, Or.inl ⟨j, habs j t c1, hVk v j t c1⟩⟩
      · have hj1 : j + 1 < tt.length := (List.getElem?_eq_some_iff.1 c2).1
        refine ⟨vals.map fun v => g (v.rowD (j * o.thinning)) + (t - a) / (b - a) * (g (v.rowD ((j + 1) * o.thinning)) - g (v.rowD (j * o.thinning))), ?_,
          by simp [hnl], fun n name hnm => ?_⟩
        · rw [c5 _ _ (hcell j hj) (hcell (j + 1) hj1), List.zipWith_map, List.zipWith_self]
          simp [Except.map, mix]
        · obtain ⟨v, hv1, hv2⟩ := hnv n name hnm
          refine ⟨v, _, hv2, by rw [List.getElem?_map, hv1]; rfl, _, (hV v).1, (hV v).2, Or.inr ⟨j, a + origin f d, b + origin f d, _, _,
            habs j a c1, habs (j + 1) b c2, hVk v j a c1, hVk v (j + 1) b c2, by linarith, by linarith, ?_⟩⟩
          have hne' : b - a ≠ 0 := by linarith
          have e4 : b + origin f d - (a + origin f d) = b - a := by ring
          have e5 : t + origin f d - (a + origin f d) = t - a := by ring
          rw [e4, e5, add_sub_cancel_left, mul_right_comm, div_mul_cancel₀ _ hne']
          ring
  · -- off the mesh
    have hnone : ∀ row : List K, valueAt sq m o.centroids row (relTo f.corner P) = none := by
      intro row
      unfold valueAt
      rcases hout with h | h
      · rw [if_neg h]
      · split_ifs
        · cases hsr : m.tree.search (relTo f.corner P) with
          | none => rfl
          | some s =>
            obtain ⟨k1, k2⟩ := Verif.Interp.search_mem hr.fits hsr
            exact absurd (almost_shift k2) (h s k1)
        · rfl
    have hcell : ∀ k < tt.length, F.pre.at (some p) k = some (vals.map fun _ => .inf) := by
      intro k hkl
      rw [hat k hkl]
      congr 1
      apply List.map_congr_left
      intro v _
      rw [hnone]
      rfl
    have hconst : (vals.map fun _ => (Cell.inf : Cell K)) = names.map fun _ => .inf := by
      rw [List.map_const', List.map_const', hnl]
    obtain ⟨j, hj, hcase⟩ := (slot hist t).2.2 (range1 t h1) (range2 t h2)
    rw [htime] at hj
    simp only [htime, hpre] at hcase
    rcases hcase with ⟨c1, c2⟩ | ⟨a, b, c1, c2, c3, c4, c5⟩
    · rw [c2 _ (hcell j hj), hconst]
      rfl
    · have hj1 : j + 1 < tt.length := (List.getElem?_eq_some_iff.1 c2).1
      rw [c5 _ _ (hcell j hj) (hcell (j + 1) hj1), List.zipWith_map, List.zipWith_self]
      simp only [mix]
      rw [hconst]
      rfl

end Verif.FileFn
