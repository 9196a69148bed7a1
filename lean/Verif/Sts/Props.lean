import Verif.Sts.Lemmas

/-! # C99: functions read from files of gauges -/

namespace Verif.Sts

set_option linter.unusedSectionVars false

open Verif.Polygon (Pt OnSeg IsSqrt)
open Verif.FileFn (File Fn Opts Var Pre Cell limited movedBack relTo Kept Covered origin absTimes fnTimes fnTimes_get fnTimes_increasing kept_eq cut_get
  mapM_get slot_abs after_keeps pre_at mix)
open Verif.Interp (LineThrough StrictlyIncreasing thin monotone thin_get isChain_increasing)
open Verif.Quad (onLine onLine_of_onSeg near_of_onLine)

variable {K : Type*} [Field K] [LinearOrder K] [IsStrictOrderedRing K]

variable {f : File K} {names : List String} {x poly : List (Pt K)} {T : List K} {vals : List (Var K)}

/-- The selected gauges of a file. -/
def sel (f : File K) (x poly : List (Pt K)) : List (Sel K) := select x (poly.map (relTo f.corner))

/-- Their vertices. -/
def ids (f : File K) (x poly : List (Pt K)) : List ℕ := (sel f x poly).map (·.boundary)

theorem mem_ids (i : ℕ) : i ∈ ids f x poly ↔ Gauged f x poly i := ids_mem i

theorem ids_lt : ∀ i ∈ ids f x poly, i < poly.length := by
  intro i hi
  obtain ⟨j, hj⟩ := (mem_ids i).1 hi
  exact (gives_lt hj).1

theorem stretch_iff : wrongSegments (neighbours poly.length (ids f x poly)) = false ↔ OneStretch f x poly := by
  rw [segments_iff, neigh_length]
  have hs : (ids f x poly).Pairwise (· < ·) := select_sorted
  have hnone : ∀ j < (ids f x poly).length, ((neighbours poly.length (ids f x poly)).getD j none = none ↔
      ¬ Gauged f x poly (after poly ((ids f x poly).getD j 0))) := by
    intro j hj
    rw [← mem_ids, Option.eq_none_iff_forall_ne_some]
    constructor
    · intro h hm
      obtain ⟨m, hm1, hm2⟩ := List.getElem_of_mem hm
      refine h m ((neigh_get hs ids_lt hj m).2 ⟨hm1, ?_⟩)
      rw [List.getD_eq_getElem?_getD, List.getElem?_eq_getElem hm1]
      exact hm2
    · intro h m hm
      obtain ⟨h1, h2⟩ := (neigh_get hs ids_lt hj m).1 hm
      refine h ?_
      unfold after
      rw [← h2]
      exact getD_mem h1
  unfold OneStretch
  constructor
  · rintro ⟨j, ⟨hj, hn⟩, hu⟩
    refine ⟨(ids f x poly).getD j 0, ⟨(mem_ids _).1 (getD_mem hj), (hnone j hj).1 hn⟩, ?_⟩
    rintro i ⟨hi, hi'⟩
    obtain ⟨m, hm, rfl⟩ := List.getElem_of_mem ((mem_ids i).2 hi)
    have e : (ids f x poly).getD m 0 = (ids f x poly)[m]'hm := by rw [List.getD_eq_getElem?_getD, List.getElem?_eq_getElem hm]; rfl
    have := hu m ⟨hm, (hnone m hm).2 (by rw [e]; exact hi')⟩
    subst this
    exact e.symm
  · rintro ⟨i, ⟨hi, hi'⟩, hu⟩
    obtain ⟨m, hm, rfl⟩ := List.getElem_of_mem ((mem_ids i).2 hi)
    have hm : m < (ids f x poly).length := hm
    have e : (ids f x poly).getD m 0 = (ids f x poly)[m]'hm := by rw [List.getD_eq_getElem?_getD, List.getElem?_eq_getElem hm]; rfl
    refine ⟨m, ⟨hm, (hnone m hm).2 (by rw [e]; exact hi')⟩, ?_⟩
    rintro j ⟨hj, hn⟩
    have h1 := hu _ ⟨(mem_ids _).1 (getD_mem hj), (hnone j hj).1 hn⟩
    rcases Nat.lt_trichotomy j m with h | h | h
    · have := sorted_get hs hm h
      rw [e] at this
      exact absurd h1 (Nat.ne_of_lt this)
    · exact h
    · have := sorted_get hs hj h
      rw [e] at this
      exact absurd h1.symm (Nat.ne_of_lt this)

/-! ## The value along the polyline -/

theorem off_rel {c p a b : Pt K} (h : Off p a b) : Off (relTo c p) (relTo c a) (relTo c b) := by
  rintro q ⟨t, h0, h1, hx, hy⟩
  have := h ⟨q.x + c.x, q.y + c.y⟩ ⟨t, h0, h1, by simp only [relTo] at hx ⊢; linear_combination hx, by simp only [relTo] at hy ⊢; linear_combination hy⟩
  simp only [relTo]
  rw [show b.x - c.x - (a.x - c.x) = b.x - a.x by ring, show b.y - c.y - (a.y - c.y) = b.y - a.y by ring,
    show p.x - c.x - q.x = p.x - (q.x + c.x) by ring, show p.y - c.y - q.y = p.y - (q.y + c.y) by ring]
  exact this

/-- The nodes, the data and the neighbours of the polyline. -/
theorem poly_value {sq : K → K} (hs : IsSqrt sq) (D : ℕ → K) (P : Pt K) (w : K)
    (h : ∀ i a b ja jb, Side f x poly i a b → Gives f x poly i ja → Gives f x poly (after poly i) jb →
      Off P a b ∨ (a ≠ b ∧ ∃ t, 0 ≤ t ∧ t ≤ 1 ∧ P.x = a.x + t * (b.x - a.x) ∧ P.y = a.y + t * (b.y - a.y) ∧ D ja + t * (D jb - D ja) = w)) :
    ((∀ i a b, Side f x poly i a b → Off P a b) → polyline sq ((sel f x poly).map (·.pos)) (neighbours poly.length (ids f x poly))
      ((sel f x poly).map fun s => D s.gauge) (relTo f.corner P) = 0) ∧
    ((∃ i a b, Side f x poly i a b ∧ OnSeg P a b) → polyline sq ((sel f x poly).map (·.pos)) (neighbours poly.length (ids f x poly))
      ((sel f x poly).map fun s => D s.gauge) (relTo f.corner P) = w) := by
  have hsort : (ids f x poly).Pairwise (· < ·) := select_sorted
  set S := sel f x poly with hS
  have hlen : (ids f x poly).length = S.length := by unfold ids; simp [hS]
  -- a node
  have node : ∀ (j : ℕ) (hj : j < S.length), ∃ b, poly[(ids f x poly).getD j 0]? = some b ∧ (S.map (·.pos)).getD j ⟨0, 0⟩ = relTo f.corner b ∧
      Gives f x poly ((ids f x poly).getD j 0) S[j].gauge ∧ (S.map fun s => D s.gauge).getD j 0 = D S[j].gauge := by
    intro j hj
    obtain ⟨h1, b, h2, h3⟩ := (select_mem S[j]).1 (List.getElem_mem hj)
    have e : (ids f x poly).getD j 0 = S[j].boundary := by
      unfold ids
      rw [← hS, List.getD_eq_getElem?_getD, List.getElem?_map, List.getElem?_eq_getElem hj]
      rfl
    refine ⟨b, by rw [e]; exact h2, ?_, by rw [e]; exact h1, ?_⟩
    · rw [List.getD_eq_getElem?_getD, List.getElem?_map, List.getElem?_eq_getElem hj]
      exact h3
    · rw [List.getD_eq_getElem?_getD, List.getElem?_map, List.getElem?_eq_getElem hj]
      rfl
  -- a side
  have side : ∀ (j : ℕ) (_ : j < S.length) (m : ℕ), (neighbours poly.length (ids f x poly)).getD j none = some m →
      ∃ hm : m < S.length, (ids f x poly).getD m 0 = after poly ((ids f x poly).getD j 0) := by
    intro j hj m hm
    obtain ⟨h1, h2⟩ := (neigh_get hsort ids_lt (by rw [hlen]; exact hj) m).1 hm
    exact ⟨by rw [← hlen]; exact h1, h2⟩
  have key := foldl_replace (step := segStep sq (S.map (·.pos)) (neighbours poly.length (ids f x poly)) (S.map fun s => D s.gauge) (relTo f.corner P))
    (on := fun j => j < S.length ∧ ∃ a b, Side f x poly ((ids f x poly).getD j 0) a b ∧ ¬ Off P a b) w (List.range S.length) (by
      intro j hj
      rw [List.mem_range] at hj
      unfold segStep
      cases hn : (neighbours poly.length (ids f x poly)).getD j none with
      | none =>
        right
        refine ⟨?_, fun v => rfl⟩
        rintro ⟨-, a, b, ⟨-, hg, -⟩, -⟩
        obtain ⟨m, hm, e⟩ := List.getElem_of_mem ((mem_ids _).2 hg)
        have := (neigh_get hsort ids_lt (by rw [hlen]; exact hj) m).2 ⟨hm, by
          rw [List.getD_eq_getElem?_getD, List.getElem?_eq_getElem hm]; exact e⟩
        rw [hn] at this
        simp at this
      | some m =>
        obtain ⟨hm, em⟩ := side j hj m hn
        obtain ⟨a, a1, a2, a3, a4⟩ := node j hj
        obtain ⟨b, b1, b2, b3, b4⟩ := node m hm
        rw [em] at b1 b3
        have hside : Side f x poly ((ids f x poly).getD j 0) a b := ⟨⟨_, a3⟩, ⟨_, b3⟩, a1, b1⟩
        simp only [a2, b2, a4, b4]
        rcases h _ a b _ _ hside a3 b3 with hoff | ⟨hab, t, t0, t1, hx, hy, hw⟩
        · right
          refine ⟨?_, fun v => ?_⟩
          · rintro ⟨-, a', b', ⟨-, -, ha', hb'⟩, hno⟩
            rw [a1] at ha'
            rw [b1] at hb'
            cases ha'
            cases hb'
            exact hno hoff
          · rw [if_neg]
            rw [off_not_onLine (off_rel hoff)]
            simp
        · left
          have hseg : OnSeg (relTo f.corner P) (relTo f.corner a) (relTo f.corner b) := by
            refine ⟨t, t0, t1, ?_, ?_⟩
            · simp only [relTo]; linear_combination hx
            · simp only [relTo]; linear_combination hy
          refine ⟨⟨hj, a, b, hside, fun hoff => ?_⟩, fun v => ?_⟩
          · have := hoff P ⟨t, t0, t1, hx, hy⟩
            rw [sub_self, sub_self] at this
            have hnn : 0 ≤ (b.x - a.x) * (b.x - a.x) + (b.y - a.y) * (b.y - a.y) := add_nonneg (mul_self_nonneg _) (mul_self_nonneg _)
            have : (1 / 10 ^ 6 : K) ^ 2 * ((b.x - a.x) * (b.x - a.x) + (b.y - a.y) * (b.y - a.y)) < 0 := by simpa using this
            exact absurd this (not_lt.2 (mul_nonneg (sq_nonneg _) hnn))
          · rw [if_pos (onLine_of_onSeg (by positivity) (by positivity) hseg)]
            rw [seg_value hs (t := t) ?_ t0 ?_ ?_, hw]
            · intro e
              apply hab
              simp only [relTo, Pt.mk.injEq, sub_left_inj] at e
              cases a; cases b
              simp only at e
              rw [e.1, e.2]
            · simp only [relTo]; linear_combination hx
            · simp only [relTo]; linear_combination hy) 0
  unfold polyline
  rw [List.length_map]
  constructor
  · intro hoff
    rcases key with ⟨-, e⟩ | ⟨⟨j, -, -, a, b, h1, h2⟩, -⟩
    · exact e
    · exact absurd (hoff _ a b h1) h2
  · rintro ⟨i, a, b, h1, t, t0, t1, hx, hy⟩
    rcases key with ⟨k, -⟩ | ⟨-, e⟩
    · exfalso
      obtain ⟨m, hm, e⟩ := List.getElem_of_mem ((mem_ids i).2 h1.1)
      have hm' : m < (ids f x poly).length := hm
      have e' : (ids f x poly).getD m 0 = i := by rw [List.getD_eq_getElem?_getD, List.getElem?_eq_getElem hm']; exact e
      rw [hlen] at hm'
      refine k m (List.mem_range.2 hm') ⟨hm', a, b, by rw [e']; exact h1, fun hoff => ?_⟩
      have := hoff P ⟨t, t0, t1, hx, hy⟩
      rw [sub_self, sub_self] at this
      have hnn : 0 ≤ (b.x - a.x) * (b.x - a.x) + (b.y - a.y) * (b.y - a.y) := add_nonneg (mul_self_nonneg _) (mul_self_nonneg _)
      have : (1 / 10 ^ 6 : K) ^ 2 * ((b.x - a.x) * (b.x - a.x) + (b.y - a.y) * (b.y - a.y)) < 0 := by simpa using this
      exact absurd this (not_lt.2 (mul_nonneg (sq_nonneg _) hnn))
    · exact e

/-! ## Opening -/

theorem take_spec (hv : ∃ rows : List (List K), (v : Var K) = .two rows ∧ rows.length = T.length ∧ ∀ r ∈ rows, r.length = x.length) :
    takeCols ((sel f x poly).map (·.gauge)) v = some ((List.range T.length).map fun k => (sel f x poly).map fun s => v.value k s.gauge) := by
  obtain ⟨rows, rfl, hl, hr⟩ := hv
  have hj : ∀ s ∈ sel f x poly, s.gauge < x.length := fun s hs => (gives_lt ((select_mem s).1 hs).1).2
  have hrow : ∀ r ∈ rows, ((sel f x poly).map (·.gauge)).mapM (fun j => r[j]?) = some ((sel f x poly).map fun s => r.getD s.gauge 0) := by
    intro r hr'
    rw [List.mapM_map]
    have hlen := hr r hr'
    generalize sel f x poly = S at hj
    induction S with
    | nil => rfl
    | cons s S ih =>
      have h1 : (r[s.gauge]? : Option K) = some (r.getD s.gauge 0) := by
        rw [List.getD_eq_getElem?_getD, List.getElem?_eq_getElem (by rw [hlen]; exact hj s (by simp))]; rfl
      rw [List.mapM_cons, ih fun s hs => hj s (by simp [hs])]
      simp only [Function.comp_apply, h1]
      rfl
  have hall : ∀ l : List (List K), (∀ r ∈ l, r ∈ rows) → l.mapM (fun r => ((sel f x poly).map (·.gauge)).mapM fun j => r[j]?) =
      some (l.map fun r => (sel f x poly).map fun s => r.getD s.gauge 0) := by
    intro l
    induction l with
    | nil => intro _; rfl
    | cons r l ih =>
      intro h
      rw [List.mapM_cons, hrow r (h r (by simp)), ih fun r hr => h r (by simp [hr])]
      rfl
  unfold takeCols
  simp only
  rw [hall rows fun r h => h, ← hl]
  congr 1
  apply List.ext_getElem
  · simp
  · intro k h1 h2
    have hk : k < rows.length := by simpa using h1
    simp only [List.getElem_map, List.getElem_range]
    apply List.map_congr_left
    intro s _
    show _ = (rows.getD k []).getD s.gauge 0
    rw [List.getD_eq_getElem?_getD (l := rows), List.getElem?_eq_getElem hk]
    rfl

/-- What is left after the checks. -/
theorem open_spec (hh : Holds f names x T vals) (sq : K → K) (d : Option K) (o : Opts K) (hrel : o.relative = true) (idx : List ℕ)
    (hk : Kept T f.starttime o.thinning o.limit idx) (hne : idx ≠ []) :
    openGauges sq f names d o (some poly) = if sel f x poly = [] then .error .noGauge
      else if wrongSegments (neighbours poly.length (ids f x poly)) then .error .segments
      else make sq (fnTimes T f.starttime o.limit d) (vals.map fun v => (List.range T.length).map fun k => (sel f x poly).map fun s => v.value k s.gauge)
        ((sel f x poly).map (·.pos)) (neighbours poly.length (ids f x poly)) (o.points.map fun ps => ps.map (relTo f.corner)) o.thinning f.starttime := by
  obtain ⟨i0, hi0⟩ := List.exists_mem_of_ne_nil idx hne
  obtain ⟨t0, h1, -, h3⟩ := (hk.mem i0).1 hi0
  have hT0 : T ≠ [] := by rintro rfl; simp at h1
  have hcut : limited f.starttime o.limit T ≠ [] := by
    intro h
    have := (cut_get hh.increasing f.starttime o.limit i0 t0).2 ⟨h1, h3⟩
    rw [h] at this
    simp at this
  have htake : vals.mapM (takeCols ((sel f x poly).map (·.gauge))) =
      some (vals.map fun v => (List.range T.length).map fun k => (sel f x poly).map fun s => v.value k s.gauge) := by
    have hsh := hh.shaped
    clear hh
    induction vals with
    | nil => rfl
    | cons v vs ih =>
      rw [List.mapM_cons, take_spec (hsh v (by simp)), ih fun w hw => hsh w (by simp [hw])]
      rfl
  unfold openGauges
  rw [if_neg hh.some_names, hh.time, hh.vars]
  simp only
  rw [hh.coords]
  simp only [hrel, if_true]
  rw [if_neg hT0, if_neg hcut]
  show (if sel f x poly = [] then _ else if wrongSegments (neighbours poly.length (ids f x poly)) = true then _ else
    match vals.mapM (takeCols ((sel f x poly).map (·.gauge))) with | none => _ | some vs => _) = _
  rw [htake]
  rfl

theorem sel_nil : sel f x poly = [] ↔ ∀ i, ¬ Gauged f x poly i := by
  constructor
  · intro h i hi
    have := (mem_ids i).2 hi
    unfold ids at this
    rw [h] at this
    simp at this
  · intro h
    by_contra hne
    obtain ⟨s, hs⟩ := List.exists_mem_of_ne_nil _ hne
    exact h _ ((mem_ids s.boundary).1 (List.mem_map.2 ⟨s, hs, rfl⟩))

theorem many_gauges {i k : ℕ} (hik : i ≠ k) (hi : Gauged f x poly i) (hk : Gauged f x poly k) : (sel f x poly).length ≠ 1 := by
  intro h
  obtain ⟨s, hs⟩ := List.length_eq_one_iff.1 h
  have h1 := (mem_ids i).2 hi
  have h2 := (mem_ids k).2 hk
  unfold ids at h1 h2
  rw [hs] at h1 h2
  simp at h1 h2
  exact hik (h1.trans h2.symm)

/-- **C99.** A file of gauges is accepted with a boundary polygon exactly if the vertices of the polygon that have a gauge form one stretch of it,
which may run past the first vertex but is not the whole polygon; with points to interpolate to, there must also be two such vertices. -/
theorem C99_stretch (hh : Holds f names x T vals) (sq : K → K) (d : Option K) (o : Opts K) (hrel : o.relative = true) (_hn : 0 < o.thinning)
    (idx : List ℕ) (hk : Kept T f.starttime o.thinning o.limit idx) (hne : idx ≠ []) :
    ((∃ F, openGauges sq f names d o (some poly) = .ok F) ↔
      OneStretch f x poly ∧ (o.points ≠ none → ∃ i k, i ≠ k ∧ Gauged f x poly i ∧ Gauged f x poly k)) ∧
    ((∀ i, ¬ Gauged f x poly i) → openGauges sq f names d o (some poly) = .error .noGauge) ∧
    ((∃ i, Gauged f x poly i) → ¬ OneStretch f x poly → openGauges sq f names d o (some poly) = .error .segments) := by
  have hop := open_spec (poly := poly) hh sq d o hrel idx hk hne
  have hmono : monotone (fnTimes T f.starttime o.limit d) = true := by
    unfold monotone
    rw [decide_eq_true_eq, isChain_increasing]
    exact fun i a b ha hb => (fnTimes_increasing hh.increasing o.limit d i (i + 1) a b (by omega) ha hb).le
  rw [hop]
  refine ⟨⟨?_, ?_⟩, fun h => if_pos (sel_nil.2 h), fun h1 h2 => ?_⟩
  · rintro ⟨F, hF⟩
    split_ifs at hF with h1 h2
    rw [Bool.not_eq_true, stretch_iff] at h2
    refine ⟨h2, fun hp => ?_⟩
    unfold make at hF
    rw [if_neg (by rw [hmono]; simp)] at hF
    obtain ⟨ps, hps⟩ := Option.ne_none_iff_exists'.1 hp
    rw [hps] at hF
    simp only [Option.map_some, List.length_map] at hF
    split_ifs at hF with h3
    match hS : sel f x poly, h1, h3 with
    | a :: b :: S, _, _ =>
      have hs : (ids f x poly).Pairwise (· < ·) := select_sorted
      have ha := (mem_ids a.boundary).1 (by unfold ids; rw [hS]; simp)
      have hb := (mem_ids b.boundary).1 (by unfold ids; rw [hS]; simp)
      unfold ids at hs
      rw [hS] at hs
      simp at hs
      exact ⟨_, _, Nat.ne_of_lt hs.1.1, ha, hb⟩
  · rintro ⟨h1, h2⟩
    obtain ⟨i, ⟨hi, -⟩, -⟩ := id h1
    rw [if_neg (fun h => sel_nil.1 h i hi), if_neg (by rw [stretch_iff.2 h1]; simp)]
    unfold make
    rw [if_neg (by rw [hmono]; simp)]
    cases hp : o.points with
    | none => exact ⟨_, rfl⟩
    | some ps =>
      obtain ⟨i, k, hik, hi, hk'⟩ := h2 (by rw [hp]; simp)
      simp only [Option.map_some, List.length_map]
      rw [if_neg (many_gauges hik hi hk')]
      exact ⟨_, rfl⟩
  · obtain ⟨i, hi⟩ := h1
    rw [if_neg (fun h => sel_nil.1 h i hi), if_pos]
    rw [← Bool.not_eq_false, stretch_iff]
    exact h2

/-- The values of the function at a point. -/
theorem series_at (hh : Holds f names x T vals) (sq : K → K) (d : Option K) (o : Opts K) (pts : List (Pt K)) (hp : o.points = some pts)
    (hrel : o.relative = true) (hn : 0 < o.thinning) (idx : List ℕ) (hk : Kept T f.starttime o.thinning o.limit idx) (hne : idx ≠ [])
    (h1 : OneStretch f x poly) (h2 : ∃ i k, i ≠ k ∧ Gauged f x poly i ∧ Gauged f x poly k) :
    ∃ F, openGauges sq f names d o (some poly) = .ok F ∧ F.starttime = f.starttime ∧ ∀ (p : ℕ) (P : Pt K), pts[p]? = some P →
      ∀ (hist : List (K × Option ℕ)) (t : K),
      ((∀ i ∈ idx, t + origin f d < T.getD i 0 + f.starttime) → (F.after hist).call t (some p) = .error .early) ∧
      ((∀ i ∈ idx, T.getD i 0 + f.starttime < t + origin f d) → (F.after hist).call t (some p) = .error .late) ∧
      (Covered f T idx (t + origin f d) → ∀ V : Var K → ℕ → K, (∀ v : Var K, ∀ k, polyline sq ((sel f x poly).map (·.pos))
          (neighbours poly.length (ids f x poly)) ((sel f x poly).map fun s => v.value k s.gauge) (relTo f.corner P) = V v k) →
        ∃ q : List K, ((F.after hist).call t (some p)).map Prod.snd = .ok (q.map .num) ∧ Series f T names idx V (t + origin f d) q) := by
  have hop := open_spec (poly := poly) hh sq d o hrel idx hk hne
  have hmono : monotone (fnTimes T f.starttime o.limit d) = true := by
    unfold monotone
    rw [decide_eq_true_eq, isChain_increasing]
    exact fun i a b ha hb => (fnTimes_increasing hh.increasing o.limit d i (i + 1) a b (by omega) ha hb).le
  obtain ⟨i0, ⟨hi0, -⟩, -⟩ := id h1
  obtain ⟨ia, ib, hab, hia, hib⟩ := h2
  rw [if_neg (fun h => sel_nil.1 h i0 hi0), if_neg (by rw [stretch_iff.2 h1]; simp)] at hop
  unfold make at hop
  rw [if_neg (by rw [hmono]; simp), hp] at hop
  simp only [Option.map_some, List.length_map] at hop
  rw [if_neg (many_gauges hab hia hib)] at hop
  have hidx := kept_eq (d := d) hh.increasing o.thinning hn o.limit idx hk
  set tt := thin o.thinning (fnTimes T f.starttime o.limit d) with htt
  have hlen : idx.length = tt.length := by
    conv_lhs => rw [hidx]
    simp
  have hin : ∀ k < tt.length, idx[k]? = some (k * o.thinning) ∧ k * o.thinning < T.length := by
    intro k hkl
    have e : idx[k]? = some (k * o.thinning) := by rw [hidx, List.getElem?_map, List.getElem?_range hkl]; rfl
    obtain ⟨t, ht, -⟩ := (hk.mem _).1 (List.mem_of_getElem? e)
    exact ⟨e, (List.getElem?_eq_some_iff.1 ht).1⟩
  refine ⟨_, hop, rfl, fun p P hP hist t => ?_⟩
  set F : Fn K := ⟨tt, 0, .points ((List.range tt.length).map fun i => (vals.map fun v => (List.range T.length).map fun k =>
    (sel f x poly).map fun s => v.value k s.gauge).map fun v => (pts.map (relTo f.corner)).map fun p =>
      .num (polyline sq ((sel f x poly).map (·.pos)) (neighbours poly.length (ids f x poly)) (v.getD (i * o.thinning) []) p)), f.starttime⟩ with hF
  have hlen0 : 0 < F.time.length := by
    show 0 < tt.length
    rw [← hlen]; exact List.length_pos_of_ne_nil hne
  obtain ⟨i, e, hi⟩ := after_keeps hist F hlen0
  obtain ⟨s1, s2, s3⟩ := slot_abs (f := f) hh.increasing o.thinning hn o.limit d idx hk hne (F.after hist) (by rw [e]) (by rw [e]; exact hi) (some p)
    (by rw [e]; exact trivial) t
  refine ⟨s1, s2, fun hcov V hV => ?_⟩
  have hP' : (pts.map (relTo f.corner))[p]? = some (relTo f.corner P) := by rw [List.getElem?_map, hP]; rfl
  have hat : ∀ k < tt.length, F.pre.at (some p) k = some (vals.map fun v => .num (V v (k * o.thinning))) := by
    intro k hkl
    have e1 : F.pre = .points ((List.range tt.length).map fun i => vals.map fun v => (pts.map (relTo f.corner)).map fun p =>
        .num (polyline sq ((sel f x poly).map (·.pos)) (neighbours poly.length (ids f x poly))
          (((List.range T.length).map fun k => (sel f x poly).map fun s => v.value k s.gauge).getD (i * o.thinning) []) p)) := by
      show Pre.points _ = _
      simp only [List.map_map]
      rfl
    rw [e1, pre_at vals (pts.map (relTo f.corner)) (fun i v p => .num (polyline sq ((sel f x poly).map (·.pos)) (neighbours poly.length (ids f x poly))
          (((List.range T.length).map fun k => (sel f x poly).map fun s => v.value k s.gauge).getD (i * o.thinning) []) p)) tt.length k p
      (relTo f.corner P) hkl hP']
    congr 1
    apply List.map_congr_left
    intro v _
    rw [List.getD_eq_getElem?_getD, List.getElem?_map, List.getElem?_range (hin k hkl).2]
    simp only [Option.map_some, Option.getD_some]
    rw [hV]
  obtain ⟨j, hj, hcase⟩ := s3 hcov
  have hpre : (F.after hist).pre = F.pre := by rw [e]
  rw [hpre] at hcase
  rw [hlen] at hj
  obtain ⟨hnl, hnv⟩ := mapM_get hh.vars
  have hVk : ∀ (v : Var K) (k : ℕ), k < tt.length → (idx.map (V v))[k]? = some (V v (k * o.thinning)) := by
    intro v k hkl
    rw [List.getElem?_map, (hin k hkl).1]
    rfl
  rcases hcase with ⟨c1, c2⟩ | ⟨a, b, c1, c2, c3, c4, c5⟩
  · refine ⟨vals.map fun v => V v (j * o.thinning), ?_, by simp [hnl], fun n name hnm' => ?_⟩
    · rw [c2 _ (hat j hj)]
      simp [Except.map]
    · obtain ⟨v, hv1, hv2⟩ := hnv n name hnm'
      exact ⟨v, V v (j * o.thinning), hv2, by rw [List.getElem?_map, hv1]; rfl, Or.inl ⟨j, c1, hVk v j hj⟩⟩
  · have hj1 : j + 1 < tt.length := by
      have := (List.getElem?_eq_some_iff.1 c2).1
      unfold absTimes at this
      rw [← hlen]
      simpa using this
    refine ⟨vals.map fun v => V v (j * o.thinning) + (t + origin f d - a) / (b - a) * (V v ((j + 1) * o.thinning) - V v (j * o.thinning)), ?_,
      by simp [hnl], fun n name hnm' => ?_⟩
    · rw [c5 _ _ (hat j hj) (hat (j + 1) hj1), List.zipWith_map, List.zipWith_self]
      simp [Except.map, mix]
    · obtain ⟨v, hv1, hv2⟩ := hnv n name hnm'
      refine ⟨v, _, hv2, by rw [List.getElem?_map, hv1]; rfl, Or.inr ⟨j, a, b, _, _, c1, c2, hVk v j hj, hVk v (j + 1) hj1, c3, c4, ?_⟩⟩
      have hne' : b - a ≠ 0 := by linarith
      show (V v (j * o.thinning) + (t + origin f d - a) / (b - a) * (V v ((j + 1) * o.thinning) - V v (j * o.thinning)) - V v (j * o.thinning)) * (b - a) = _
      rw [add_sub_cancel_left, mul_right_comm, div_mul_cancel₀ _ hne']
      ring

/-- **C99.** A file of gauges opened with a boundary polygon of which one stretch of vertices has gauges gives, at every absolute time that the file
covers, and whatever calls were made before:
at a point on a side between two such vertices (and off the other ones), the value linear along the side between those of the first gauges at its
ends; at a vertex, the value of its gauge; at a point off all these sides, zero. In time the values are linear between the stored results. Earlier
and later times are refused. -/
theorem C99_value (hh : Holds f names x T vals) (sq : K → K) (hs : IsSqrt sq) (d : Option K) (o : Opts K) (pts : List (Pt K))
    (hp : o.points = some pts) (hrel : o.relative = true) (hn : 0 < o.thinning) (idx : List ℕ) (hk : Kept T f.starttime o.thinning o.limit idx)
    (hne : idx ≠ []) (h1 : OneStretch f x poly) (h2 : ∃ i k, i ≠ k ∧ Gauged f x poly i ∧ Gauged f x poly k) :
    ∃ F, openGauges sq f names d o (some poly) = .ok F ∧ F.starttime = f.starttime ∧ ∀ (p : ℕ) (P : Pt K), pts[p]? = some P →
      ∀ (hist : List (K × Option ℕ)) (t : K),
      ((∀ i ∈ idx, t + origin f d < T.getD i 0 + f.starttime) → (F.after hist).call t (some p) = .error .early) ∧
      ((∀ i ∈ idx, T.getD i 0 + f.starttime < t + origin f d) → (F.after hist).call t (some p) = .error .late) ∧
      (Covered f T idx (t + origin f d) →
        (∀ i a b ja jb s, Side f x poly i a b → a ≠ b → Gives f x poly i ja → Gives f x poly (after poly i) jb → 0 ≤ s → s ≤ 1 →
          P.x = a.x + s * (b.x - a.x) → P.y = a.y + s * (b.y - a.y) → (∀ k a' b', Side f x poly k a' b' → k ≠ i → Off P a' b') →
          ∃ q : List K, ((F.after hist).call t (some p)).map Prod.snd = .ok (q.map .num) ∧
            Series f T names idx (fun v k => (1 - s) * v.value k ja + s * v.value k jb) (t + origin f d) q) ∧
        (∀ i j, Gives f x poly i j → poly[i]? = some P → (∃ k a b, Side f x poly k a b ∧ (k = i ∨ after poly k = i)) →
          (∀ k a b, Side f x poly k a b → if k = i ∨ after poly k = i then a ≠ b else Off P a b) →
          ∃ q : List K, ((F.after hist).call t (some p)).map Prod.snd = .ok (q.map .num) ∧
            Series f T names idx (fun v k => v.value k j) (t + origin f d) q) ∧
        ((∀ i a b, Side f x poly i a b → Off P a b) →
          ∃ q : List K, ((F.after hist).call t (some p)).map Prod.snd = .ok (q.map .num) ∧
            Series f T names idx (fun _ _ => 0) (t + origin f d) q)) := by
  obtain ⟨F, hF, hst, hcall⟩ := series_at (poly := poly) hh sq d o pts hp hrel hn idx hk hne h1 h2
  refine ⟨F, hF, hst, fun p P hP hist t => ?_⟩
  obtain ⟨c1, c2, c3⟩ := hcall p P hP hist t
  refine ⟨c1, c2, fun hcov => ⟨?_, ?_, ?_⟩⟩
  · intro i a b ja jb s hside hab hja hjb s0 s1 hx hy hoff
    refine c3 hcov _ fun v k => ?_
    refine (poly_value hs (fun j => v.value k j) P _ ?_).2 ⟨i, a, b, hside, s, s0, s1, hx, hy⟩
    intro i' a' b' ja' jb' hside' hja' hjb'
    by_cases h : i' = i
    · subst h
      right
      obtain ⟨-, -, e1, e2⟩ := hside
      obtain ⟨-, -, e1', e2'⟩ := hside'
      rw [e1] at e1'
      rw [e2] at e2'
      cases e1'
      cases e2'
      rw [gives_unique hja' hja, gives_unique hjb' hjb]
      exact ⟨hab, s, s0, s1, hx, hy, by ring⟩
    · exact Or.inl (hoff i' a' b' hside' h)
  · intro i j hj hPi hex hall
    refine c3 hcov _ fun v k => ?_
    refine (poly_value hs (fun j => v.value k j) P _ ?_).2 ?_
    · intro i' a b ja jb hside hja hjb
      have := hall i' a b hside
      obtain ⟨-, -, e1, e2⟩ := hside
      split_ifs at this with h
      · right
        refine ⟨this, ?_⟩
        rcases h with h | h
        · subst h
          rw [hPi] at e1
          cases e1
          rw [gives_unique hja hj]
          exact ⟨0, le_refl _, zero_le_one, by ring, by ring, by ring⟩
        · rw [h] at hjb e2
          rw [hPi] at e2
          cases e2
          rw [gives_unique hjb hj]
          exact ⟨1, zero_le_one, le_refl _, by ring, by ring, by ring⟩
      · exact Or.inl this
    · obtain ⟨i', a, b, hside, h⟩ := hex
      refine ⟨i', a, b, hside, ?_⟩
      obtain ⟨-, -, e1, e2⟩ := hside
      rcases h with h | h
      · subst h
        rw [hPi] at e1
        cases e1
        exact ⟨0, le_refl _, zero_le_one, by ring, by ring⟩
      · rw [h] at e2
        rw [hPi] at e2
        cases e2
        exact ⟨1, zero_le_one, le_refl _, by ring, by ring⟩
  · intro hoff
    refine c3 hcov _ fun v k => ?_
    exact (poly_value hs (fun j => v.value k j) P 0 fun i a b ja jb h _ _ => Or.inl (hoff i a b h)).1 hoff

/-- **C99.** A polygon all of whose vertices have gauges is refused. -/
theorem C99_whole (hh : Holds f names x T vals) (sq : K → K) (d : Option K) (o : Opts K) (hrel : o.relative = true) (hn : 0 < o.thinning)
    (idx : List ℕ) (hk : Kept T f.starttime o.thinning o.limit idx) (hne : idx ≠ []) (hpoly : poly ≠ [])
    (hall : ∀ b ∈ poly, ∃ j, At f x b j) : openGauges sq f names d o (some poly) = .error .segments := by
  have hg : ∀ i < poly.length, Gauged f x poly i := by
    intro i hi
    have hex := hall poly[i] (List.getElem_mem hi)
    classical
    exact ⟨Nat.find hex, poly[i], List.getElem?_eq_getElem hi, Nat.find_spec hex, fun k hk => Nat.find_min hex hk⟩
  have hpos := List.length_pos_of_ne_nil hpoly
  refine (C99_stretch hh sq d o hrel hn idx hk hne).2.2 ⟨0, hg 0 hpos⟩ ?_
  rintro ⟨i, ⟨-, h⟩, -⟩
  exact h (hg _ (Nat.mod_lt _ hpos))

end Verif.Sts
