import Verif.Cross.Scan

/-!
# C81: cross sections
-/

set_option linter.unusedSectionVars false

namespace Verif.Cross

open Verif.Polygon

variable {K : Type*} [Field K] [LinearOrder K] [IsStrictOrderedRing K]

/-- All triangles run anticlockwise and the line is in clear position to each. -/
def Ready (atol : K) (Ts : List (Tri K)) (A B : Pt K) : Prop := A ≠ B ∧ ∀ T ∈ Ts, T.Ccw ∧ SharpTri atol A B T

/-- **C81.** A straight line: no error. The segments returned are the parts of the line inside triangles, in the direction of the line, each once with the
first triangle it belongs to; missing are only parts of a triangle that contains the whole line strictly inside. Length is the distance of the ends; the
normal times the length is the segment turned to the right. -/
theorem C81_segments {sq : K → K} (hs : IsSqrt sq) {rtol atol : K} (hr : 0 ≤ rtol) (ha : 0 ≤ atol) {Ts : List (Tri K)} {A B : Pt K} (h : Ready atol Ts A B) :
    ∃ ss, lineSegments sq rtol atol Ts A B = some ss ∧ (ss.map fun u => (u.p, u.q)).Nodup ∧
    (∀ u ∈ ss, ∃ T s t, Ts[u.tri]? = some T ∧ Chord A B T s t ∧ ¬ (T.Inner A ∧ T.Inner B) ∧ u.p = along A B s ∧ u.q = along A B t ∧
      (∀ (j : ℕ) (T' : Tri K), Ts[j]? = some T' → Chord A B T' s t → ¬ (T'.Inner A ∧ T'.Inner B) → u.tri ≤ j) ∧
      0 < u.length ∧ u.length * u.length = (u.q.x - u.p.x) ^ 2 + (u.q.y - u.p.y) ^ 2 ∧
      u.normal.1 * u.length = u.q.y - u.p.y ∧ u.normal.2 * u.length = -(u.q.x - u.p.x)) ∧
    (∀ (j : ℕ) (T : Tri K) (s t : K), Ts[j]? = some T → Chord A B T s t → ¬ (T.Inner A ∧ T.Inner B) → ∃ u ∈ ss, u.p = along A B s ∧ u.q = along A B t) := by
  obtain ⟨hAB, hT⟩ := h
  obtain ⟨new, h1, h2, h3, h4⟩ := scan_spec hs hr ha hAB Ts 0 [] hT (by simp)
  simp only [List.nil_append] at h1 h2 h4
  refine ⟨new, h1, h2, ?_, ?_⟩
  · intro u hu
    obtain ⟨j, T, s, t, hj, hch, hin, rfl⟩ := h3 u hu
    have hne : along A B s ≠ along A B t := fun hh => hch.2.1.ne (along_inj hAB hh)
    have hd := dist2_pos hne
    obtain ⟨l0, l1⟩ := hs _ hd.le
    have hlen : away sq (along A B t) (along A B s) = sq (dist2 (along A B s) (along A B t)) := rfl
    have lpos : 0 < away sq (along A B t) (along A B s) := by
      rw [hlen]
      refine lt_of_le_of_ne l0 fun h0 => ?_
      rw [← h0] at l1
      linarith
    refine ⟨T, s, t, by simpa [mkSeg] using hj, hch, hin, rfl, rfl, ?_, lpos, ?_, ?_, ?_⟩
    · intro j' T' hj' hch' hin'
      obtain ⟨u', hu', hk, hle⟩ := h4 j' T' s t hj' hch' hin'
      have : u' = mkSeg sq (0 + j) (along A B s, along A B t) := List.inj_on_of_nodup_map h2 hu' hu hk
      rw [← this]
      simpa using hle hu'
    · show away sq _ _ * away sq _ _ = _
      rw [hlen, l1]
      rfl
    · show _ / away sq _ _ * away sq _ _ = _
      rw [div_mul_cancel₀ _ lpos.ne']
      rfl
    · show _ / away sq _ _ * away sq _ _ = _
      rw [div_mul_cancel₀ _ lpos.ne']
      rfl
  · intro j T s t hj hch hin
    obtain ⟨u, hu, hk, -⟩ := h4 j T s t hj hch hin
    exact ⟨u, hu, (Prod.mk.inj hk).1, (Prod.mk.inj hk).2⟩

/-- Sums over the segments found on a line that a conforming mesh covers. -/
theorem sum_segments {sq : K → K} (hs : IsSqrt sq) {rtol atol : K} (hr : 0 ≤ rtol) (ha : 0 ≤ atol) {Ts : List (Tri K)} {A B : Pt K} (h : Ready atol Ts A B)
    (hc : Conform Ts) (hcov : Covered Ts A B) (hl : Leaves Ts A B) {ss : List (Seg K)} (he : lineSegments sq rtol atol Ts A B = some ss)
    (F : K → K) (φ : Seg K → K) (hφ : ∀ u ∈ ss, ∀ s t, u.p = along A B s → u.q = along A B t → φ u = F t - F s) :
    (ss.map φ).sum = F 1 - F 0 := by
  obtain ⟨ss', he', hnd, hsound, hcomp⟩ := C81_segments hs hr ha h
  rw [he] at he'
  obtain rfl := Option.some.inj he'
  have hAB := h.1
  -- fractions of the segments
  have hex : ∀ u : Seg K, ∃ st : K × K, u ∈ ss → u.p = along A B st.1 ∧ u.q = along A B st.2 ∧ ∃ (j : ℕ) (T : Tri K), Ts[j]? = some T ∧ Chord A B T st.1 st.2 := by
    intro u
    by_cases hu : u ∈ ss
    · obtain ⟨T, s, t, hj, hch, -, hp, hq, -⟩ := hsound u hu
      exact ⟨(s, t), fun _ => ⟨hp, hq, _, T, hj, hch⟩⟩
    · exact ⟨(0, 0), fun hh => absurd hh hu⟩
  choose st hst using hex
  have hmap : (ss.map φ) = (ss.map st).map fun e => F e.2 - F e.1 := by
    rw [List.map_map]
    exact List.map_congr_left fun u hu => hφ u hu _ _ (hst u hu).1 (hst u hu).2.1
  rw [hmap]
  refine tile F _ (ss.map st) 0 1 rfl zero_le_one ?_ ?_ ?_ ?_
  · refine List.Nodup.map_on ?_ (List.Nodup.of_map _ hnd)
    intro u hu v hv huv
    refine List.inj_on_of_nodup_map hnd hu hv ?_
    rw [(hst u hu).1, (hst u hu).2.1, (hst v hv).1, (hst v hv).2.1, huv]
  · intro e he
    obtain ⟨u, hu, rfl⟩ := List.mem_map.mp he
    obtain ⟨-, -, j, T, -, hch⟩ := hst u hu
    exact ⟨hch.1, hch.2.1, hch.2.2.1⟩
  · intro e he e' he' hne
    obtain ⟨u, hu, rfl⟩ := List.mem_map.mp he
    obtain ⟨v, hv, rfl⟩ := List.mem_map.mp he'
    obtain ⟨-, -, i, T, hi, hch⟩ := hst u hu
    obtain ⟨-, -, j, T', hj, hch'⟩ := hst v hv
    exact chords_apart hc (fun T hT => (h.2 T hT).1) hAB hi hj hch hch' hne
  · intro r r0 r1 hoff
    by_contra hno
    -- all triangles containing the point touch the line there only; the points just beyond are covered by others
    have key : ∀ T ∈ Ts, (∀ s t, ¬ Chord A B T s t) → ∀ x y, 0 ≤ x → x ≤ 1 → 0 ≤ y → y ≤ 1 → T.Has (along A B x) → T.Has (along A B y) → x = y := by
      intro T hT hch x y x0 x1 y0 y1 hx hy
      have hccw := (h.2 T hT).1
      have hpart := part A B T.sides
      simp only [← has_iff hccw] at hpart
      rcases hpart with hn | ⟨a, b, a0, ab, b1, hS, -, -⟩
      · exact absurd hx (hn x x0 x1)
      · rcases ab.eq_or_lt with rfl | hlt
        · have h1 := (hS x x0 x1).mp hx
          have h2 := (hS y y0 y1).mp hy
          linarith [h1.1, h1.2, h2.1, h2.2]
        · exact absurd ⟨a0, hlt, b1, hS⟩ (hch a b)
    -- a gap around the point
    obtain ⟨m, m1, m2, m3⟩ := next_above r 1 r1 ((ss.map st).map Prod.fst ++ (ss.map st).map Prod.snd)
    have free : ∀ x, r < x → x < m → ∀ T ∈ Ts, T.Has (along A B x) → ∀ s t, ¬ Chord A B T s t := by
      intro x x1 x2 T hT hx s t hch
      obtain ⟨j, hj, rfl⟩ := List.mem_iff_getElem.mp hT
      obtain ⟨u, hu, hp, hq⟩ := hcomp j _ s t (List.getElem?_eq_getElem hj) hch (hl _ hT)
      obtain ⟨g1, g2, -⟩ := hst u hu
      have es : (st u).1 = s := along_inj hAB (g1.symm.trans hp)
      have et : (st u).2 = t := along_inj hAB (g2.symm.trans hq)
      have hxin := (hch.2.2.2 x (by linarith) (by linarith)).mp hx
      apply hno
      refine ⟨st u, List.mem_map_of_mem hu, ?_, ?_⟩
      · rw [es]
        by_contra hh
        have := m3 s (List.mem_append_left _ (by rw [← es]; exact List.mem_map_of_mem (List.mem_map_of_mem hu))) (not_le.mp hh)
        linarith [hxin.1]
      · rw [et]
        linarith [hxin.2]
    -- infinitely many points, finitely many triangles
    have pig : ∀ (L : List (Tri K)), (∀ T ∈ L, ∀ x y, r < x → x < m → r < y → y < m → T.Has (along A B x) → T.Has (along A B y) → x = y) →
        ∃ z, r < z ∧ z < m ∧ ∀ T ∈ L, ¬ T.Has (along A B z) := by
      intro L hL
      -- collect the parameter of each triangle, take a point beyond r below all of them
      have hpt : ∀ T ∈ L, ∃ c, ∀ x, r < x → x < m → T.Has (along A B x) → x = c := by
        intro T hT
        by_cases hx : ∃ x, r < x ∧ x < m ∧ T.Has (along A B x)
        · obtain ⟨c, c1, c2, c3⟩ := hx
          exact ⟨c, fun x x1 x2 hx => hL T hT x c x1 x2 c1 c2 hx c3⟩
        · exact ⟨0, fun x x1 x2 hx' => absurd ⟨x, x1, x2, hx'⟩ hx⟩
      have hpt' : ∀ T : Tri K, ∃ c, T ∈ L → ∀ x, r < x → x < m → T.Has (along A B x) → x = c := by
        intro T
        by_cases hT : T ∈ L
        · obtain ⟨c, hc⟩ := hpt T hT
          exact ⟨c, fun _ => hc⟩
        · exact ⟨0, fun hh => absurd hh hT⟩
      choose c hc using hpt'
      obtain ⟨m', p1, p2, p3⟩ := next_above r m m1 (L.map c)
      refine ⟨(r + m') / 2, by linarith, by linarith, ?_⟩
      intro T hT hh
      have e := hc T hT _ (by linarith) (by linarith) hh
      have := p3 (c T) (List.mem_map_of_mem hT) (by rw [← e]; linarith)
      rw [← e] at this
      linarith
    classical
    obtain ⟨z, z1, z2, hz⟩ := pig (Ts.filter fun T => ∀ s t, ¬ Chord A B T s t) (by
      intro T hT x y x1 x2 y1 y2 hx hy
      rw [List.mem_filter, decide_eq_true_eq] at hT
      exact key T hT.1 hT.2 x y (by linarith) (by linarith) (by linarith) (by linarith) hx hy)
    obtain ⟨T, hT, hzT⟩ := hcov (along A B z) (onSeg_along.mpr ⟨z, by linarith, by linarith, rfl⟩)
    exact hz T (by rw [List.mem_filter, decide_eq_true_eq]; exact ⟨hT, free z z1 z2 T hT hzT⟩) hzT

theorem sumFlow_eq (l : List ((K × K) × Seg K)) :
    sumFlow l = (l.map fun e => (e.1.1 * e.2.normal.1 + e.1.2 * e.2.normal.2) * e.2.length).sum := by
  unfold sumFlow
  have : ∀ (l : List ((K × K) × Seg K)) (x : K), l.foldl (fun total e => total + (e.1.1 * e.2.normal.1 + e.1.2 * e.2.normal.2) * e.2.length) x =
      x + (l.map fun e => (e.1.1 * e.2.normal.1 + e.1.2 * e.2.normal.2) * e.2.length).sum := by
    intro l
    induction l with
    | nil => intro x; simp
    | cons e l ih => intro x; rw [List.foldl_cons, ih, List.map_cons, List.sum_cons, add_assoc]
  rw [this, zero_add]

theorem flow_eq (m : Pt K → K × K) (ss : List (Seg K)) :
    flow m ss = (ss.map fun u => ((m u.mid).1 * u.normal.1 + (m u.mid).2 * u.normal.2) * u.length).sum := by
  unfold flow
  rw [sumFlow_eq]
  congr 1
  induction ss with
  | nil => rfl
  | cons u ss ih => simp only [List.map_cons, List.zip_cons_cons, ih]

/-- **C81.** The lengths add up to the length of the line. -/
theorem C81_length {sq : K → K} (hs : IsSqrt sq) {rtol atol : K} (hr : 0 ≤ rtol) (ha : 0 ≤ atol) {Ts : List (Tri K)} {A B : Pt K} (h : Ready atol Ts A B)
    (hc : Conform Ts) (hcov : Covered Ts A B) (hl : Leaves Ts A B) {ss : List (Seg K)} (he : lineSegments sq rtol atol Ts A B = some ss) :
    (ss.map fun u => u.length).sum = sq ((B.x - A.x) ^ 2 + (B.y - A.y) ^ 2) := by
  have hd := dist2_pos h.1
  obtain ⟨d0, d1⟩ := hs _ hd.le
  rw [sum_segments hs hr ha h hc hcov hl he (fun t => t * sq (dist2 A B)) (fun u => u.length)]
  · show 1 * sq (dist2 A B) - 0 * sq (dist2 A B) = sq (dist2 A B)
    ring
  · intro u hu s t hp hq
    obtain ⟨ss', he', -, hsound, -⟩ := C81_segments hs hr ha h
    rw [he] at he'
    obtain rfl := Option.some.inj he'
    obtain ⟨T, s', t', -, hch, -, hp', hq', -, l0, l1, -⟩ := hsound u hu
    have es := along_inj h.1 (hp.symm.trans hp')
    have et := along_inj h.1 (hq.symm.trans hq')
    subst es et
    have e : u.length * u.length = (t * sq (dist2 A B) - s * sq (dist2 A B)) * (t * sq (dist2 A B) - s * sq (dist2 A B)) := by
      rw [l1, hp, hq]
      have : (t * sq (dist2 A B) - s * sq (dist2 A B)) * (t * sq (dist2 A B) - s * sq (dist2 A B)) = (t - s) ^ 2 * (sq (dist2 A B) * sq (dist2 A B)) := by ring
      rw [this, d1]
      unfold along dist2
      ring
    have hst : 0 ≤ t * sq (dist2 A B) - s * sq (dist2 A B) := by
      rw [← sub_mul]
      exact mul_nonneg (by linarith [hch.2.1]) d0
    exact (mul_self_inj l0.le hst).mp e

/-- Flow per second through a straight line of a momentum that is linear in space: its value at the middle times the line turned to the right. -/
def exact (m : Pt K → K × K) (A B : Pt K) : K :=
  (m ⟨(A.x + B.x) / 2, (A.y + B.y) / 2⟩).1 * (B.y - A.y) - (m ⟨(A.x + B.x) / 2, (A.y + B.y) / 2⟩).2 * (B.x - A.x)

/-- Momentum linear in space. -/
def Linear (m : Pt K → K × K) : Prop :=
  ∃ a b c d e f : K, ∀ p : Pt K, m p = (a + b * p.x + c * p.y, d + e * p.x + f * p.y)

/-- **C81.** The flow of a momentum linear in space is exact, whatever the mesh. -/
theorem C81_flow {sq : K → K} (hs : IsSqrt sq) {rtol atol : K} (hr : 0 ≤ rtol) (ha : 0 ≤ atol) {Ts : List (Tri K)} {A B : Pt K} (h : Ready atol Ts A B)
    (hc : Conform Ts) (hcov : Covered Ts A B) (hl : Leaves Ts A B) {ss : List (Seg K)} (he : lineSegments sq rtol atol Ts A B = some ss)
    {m : Pt K → K × K} (hm : Linear m) : flow m ss = exact m A B := by
  obtain ⟨a, b, c, d, e, f, hm⟩ := hm
  rw [flow_eq, sum_segments hs hr ha h hc hcov hl he (fun t =>
    (t * (a + b * A.x + c * A.y) + t ^ 2 / 2 * (b * (B.x - A.x) + c * (B.y - A.y))) * (B.y - A.y) -
    (t * (d + e * A.x + f * A.y) + t ^ 2 / 2 * (e * (B.x - A.x) + f * (B.y - A.y))) * (B.x - A.x))]
  · unfold exact
    rw [hm]
    ring
  · intro u hu s t hp hq
    obtain ⟨ss', he', -, hsound, -⟩ := C81_segments hs hr ha h
    rw [he] at he'
    obtain rfl := Option.some.inj he'
    obtain ⟨T, s', t', -, -, -, -, -, -, -, -, n1, n2⟩ := hsound u hu
    have : ((m u.mid).1 * u.normal.1 + (m u.mid).2 * u.normal.2) * u.length =
        (m u.mid).1 * (u.normal.1 * u.length) + (m u.mid).2 * (u.normal.2 * u.length) := by ring
    rw [this, n1, n2, hm, Seg.mid, hp, hq]
    simp only [along]
    ring

/-! ## Polylines -/

/-- The straight parts of a polyline. -/
def lines : List (Pt K) → List (Pt K × Pt K)
  | A :: B :: l => (A, B) :: lines (B :: l)
  | _ => []

theorem flow_append (m : Pt K → K × K) (s t : List (Seg K)) : flow m (s ++ t) = flow m s + flow m t := by
  simp only [flow_eq, List.map_append, List.sum_append]

theorem parts_flow {sq : K → K} {rtol atol : K} {Ts : List (Tri K)} (m : Pt K → K × K) : ∀ (l : List (Pt K)) (ss : List (Seg K)),
    parts sq rtol atol Ts l = some ss → ∀ (g : Pt K × Pt K → K),
    (∀ e ∈ lines l, ∀ s, lineSegments sq rtol atol Ts e.1 e.2 = some s → flow m s = g e) → flow m ss = ((lines l).map g).sum
  | [], ss, h, g, _ => by
    obtain rfl := Option.some.inj h
    rfl
  | [A], ss, h, g, _ => by
    obtain rfl := Option.some.inj h
    rfl
  | A :: B :: l, ss, h, g, hg => by
    unfold parts at h
    rw [Option.bind_eq_some_iff] at h
    obtain ⟨s, h1, h2⟩ := h
    rw [Option.map_eq_some_iff] at h2
    obtain ⟨r, h3, rfl⟩ := h2
    have := parts_flow m (B :: l) r h3 g fun e he => hg e (by unfold lines; exact List.mem_cons_of_mem _ he)
    rw [flow_append, this, hg (A, B) (by unfold lines; simp) s h1]
    rfl

theorem parts_some {sq : K → K} {rtol atol : K} {Ts : List (Tri K)} : ∀ (l : List (Pt K)),
    (∀ e ∈ lines l, (lineSegments sq rtol atol Ts e.1 e.2).isSome) → ∃ ss, parts sq rtol atol Ts l = some ss
  | [], _ => ⟨[], rfl⟩
  | [A], _ => ⟨[], rfl⟩
  | A :: B :: l, h => by
    obtain ⟨r, hr⟩ := parts_some (B :: l) fun e he => h e (by unfold lines; exact List.mem_cons_of_mem _ he)
    obtain ⟨s, hs⟩ := Option.isSome_iff_exists.mp (h (A, B) (by unfold lines; simp))
    exact ⟨s ++ r, by unfold parts; rw [hs, hr]; rfl⟩

theorem segments_parts {sq : K → K} {rtol atol : K} {Ts : List (Tri K)} {l : List (Pt K)} {ss : List (Seg K)}
    (h : segments sq rtol atol Ts l = some ss) : parts sq rtol atol Ts l = some ss := by
  unfold segments at h
  split_ifs at h with hl
  rw [Option.bind_eq_some_iff] at h
  obtain ⟨s, h1, h2⟩ := h
  split_ifs at h2
  obtain rfl := Option.some.inj h2
  exact h1

/-- A polyline the theorems apply to. -/
def Good (atol : K) (Ts : List (Tri K)) (l : List (Pt K)) : Prop :=
  Conform Ts ∧ ∀ e ∈ lines l, Ready atol Ts e.1 e.2 ∧ Covered Ts e.1 e.2 ∧ Leaves Ts e.1 e.2

/-- **C81.** Polylines: the flow of a momentum linear in space is the sum of the exact flows through the parts. -/
theorem C81_polyline {sq : K → K} (hs : IsSqrt sq) {rtol atol : K} (hr : 0 ≤ rtol) (ha : 0 ≤ atol) {Ts : List (Tri K)} {l : List (Pt K)}
    (h : Good atol Ts l) {m : Pt K → K × K} (hm : Linear m) {ss : List (Seg K)} (he : segments sq rtol atol Ts l = some ss) :
    flow m ss = ((lines l).map fun e => exact m e.1 e.2).sum := by
  refine parts_flow m l ss (segments_parts he) _ ?_
  intro e hel s hes
  obtain ⟨h1, h2, h3⟩ := h.2 e hel
  exact C81_flow hs hr ha h1 h.1 h2 h3 hes hm

/-- **C81.** An answer is given for every polyline of two or more points. -/
theorem C81_answers {sq : K → K} (hs : IsSqrt sq) {rtol atol : K} (hr : 0 ≤ rtol) (ha : 0 ≤ atol) {Ts : List (Tri K)} {A B : Pt K} {l : List (Pt K)}
    (h : Good atol Ts (A :: B :: l)) : ∃ ss, segments sq rtol atol Ts (A :: B :: l) = some ss := by
  obtain ⟨ss, hss⟩ := parts_some (sq := sq) (rtol := rtol) (atol := atol) (Ts := Ts) (A :: B :: l) (by
    intro e he
    obtain ⟨s, h1, -⟩ := C81_segments (rtol := rtol) hs hr ha (h.2 e he).1
    rw [h1]
    rfl)
  refine ⟨ss, ?_⟩
  unfold segments
  rw [if_pos (by simp), hss]
  simp only [Option.bind_some]
  rw [if_pos]
  obtain ⟨h1, h2, h3⟩ := h.2 (A, B) (by unfold lines; simp)
  obtain ⟨s, e1, -⟩ := C81_segments (rtol := rtol) hs hr ha h1
  have hlen := C81_length hs hr ha h1 h.1 h2 h3 e1
  have hd := dist2_pos h1.1
  have hpos : 0 < sq (dist2 A B) := by
    obtain ⟨a1, a2⟩ := hs _ hd.le
    refine lt_of_le_of_ne a1 fun h0 => ?_
    rw [← h0] at a2
    linarith
  have hne : s ≠ [] := by
    rintro rfl
    simp only [List.map_nil, List.sum_nil] at hlen
    exact hpos.ne hlen
  unfold parts at hss
  rw [Option.bind_eq_some_iff] at hss
  obtain ⟨s', e2, e3⟩ := hss
  rw [e1] at e2
  obtain rfl := Option.some.inj e2
  rw [Option.map_eq_some_iff] at e3
  obtain ⟨r, -, rfl⟩ := e3
  rw [List.length_append]
  have := List.length_pos_of_ne_nil hne
  omega

/-- **C81.** Uniform momentum: only the ends of the polyline matter. -/
theorem C81_uniform {sq : K → K} (hs : IsSqrt sq) {rtol atol : K} (hr : 0 ≤ rtol) (ha : 0 ≤ atol) {Ts : List (Tri K)} {A : Pt K} {l : List (Pt K)}
    (h : Good atol Ts (A :: l)) (u v : K) {ss : List (Seg K)} (he : segments sq rtol atol Ts (A :: l) = some ss) :
    flow (fun _ => (u, v)) ss = u * ((l.getLastD A).y - A.y) - v * ((l.getLastD A).x - A.x) := by
  rw [C81_polyline hs hr ha h ⟨u, 0, 0, v, 0, 0, fun p => by simp⟩ he]
  clear he h
  induction l generalizing A with
  | nil => simp [lines]
  | cons B l ih =>
    have hB : (B :: l).getLastD A = l.getLastD B := by cases l <;> rfl
    have hu : lines (A :: B :: l) = (A, B) :: lines (B :: l) := rfl
    rw [hu, List.map_cons, List.sum_cons, ih, hB]
    unfold exact
    ring

/-! ## Direction -/

theorem along_symm (A B : Pt K) (t : K) : along B A (1 - t) = along A B t := by
  unfold along
  rw [Pt.mk.injEq]
  constructor <;> ring

theorem chord_symm {A B : Pt K} {T : Tri K} {s t : K} (h : Chord A B T s t) : Chord B A T (1 - t) (1 - s) := by
  obtain ⟨s0, st, t1, hS⟩ := h
  refine ⟨by linarith, by linarith, by linarith, fun r r0 r1 => ?_⟩
  have := hS (1 - r) (by linarith) (by linarith)
  rw [← along_symm, sub_sub_cancel] at this
  rw [this]
  constructor
  · rintro ⟨h1, h2⟩; exact ⟨by linarith, by linarith⟩
  · rintro ⟨h1, h2⟩; exact ⟨by linarith, by linarith⟩

theorem onSeg_swap {p u v : Pt K} (h : OnSeg p u v) : OnSeg p v u := by
  obtain ⟨k, k0, k1, kx, ky⟩ := h
  exact ⟨1 - k, by linarith, by linarith, by rw [kx]; ring, by rw [ky]; ring⟩

theorem sharp_symm {atol : K} {A B U V : Pt K} (h : Sharp atol A B U V) : Sharp atol B A U V := by
  have e1 : turn B A U V = -turn A B U V := by unfold turn; ring
  have e2 : turn B A B U = -turn A B A U := by unfold turn; ring
  refine ⟨?_, ?_, h.endB, h.endA, ?_, ?_⟩
  · rw [e1, neg_eq_zero, abs_neg]; exact h.cross
  · rw [e2, neg_eq_zero, abs_neg]; exact h.offset
  · exact h.endU.imp onSeg_swap fun hn hh => hn hh.symm
  · exact h.endV.imp onSeg_swap fun hn hh => hn hh.symm

theorem ready_symm {atol : K} {Ts : List (Tri K)} {A B : Pt K} (h : Ready atol Ts A B) : Ready atol Ts B A :=
  ⟨h.1.symm, fun T hT => ⟨(h.2 T hT).1, fun e he => sharp_symm ((h.2 T hT).2 e he)⟩⟩

/-- Flow through one segment as a function of its end points. -/
def through (m : Pt K → K × K) (e : Pt K × Pt K) : K := exact m e.1 e.2

theorem flow_keys {sq : K → K} (hs : IsSqrt sq) {rtol atol : K} (hr : 0 ≤ rtol) (ha : 0 ≤ atol) {Ts : List (Tri K)} {A B : Pt K} (h : Ready atol Ts A B)
    {ss : List (Seg K)} (he : lineSegments sq rtol atol Ts A B = some ss) (m : Pt K → K × K) :
    flow m ss = ((ss.map fun u => (u.p, u.q)).map (through m)).sum := by
  obtain ⟨ss', he', -, hsound, -⟩ := C81_segments hs hr ha h
  rw [he] at he'
  obtain rfl := Option.some.inj he'
  rw [flow_eq, List.map_map]
  congr 1
  refine List.map_congr_left fun u hu => ?_
  obtain ⟨T, s, t, -, -, -, -, -, -, -, -, n1, n2⟩ := hsound u hu
  have : ((m u.mid).1 * u.normal.1 + (m u.mid).2 * u.normal.2) * u.length =
      (m u.mid).1 * (u.normal.1 * u.length) + (m u.mid).2 * (u.normal.2 * u.length) := by ring
  rw [this, n1, n2]
  show _ = (m u.mid).1 * (u.q.y - u.p.y) - (m u.mid).2 * (u.q.x - u.p.x)
  ring

/-- **C81.** In the opposite direction the flow is the opposite, for every momentum. -/
theorem C81_direction {sq : K → K} (hs : IsSqrt sq) {rtol atol : K} (hr : 0 ≤ rtol) (ha : 0 ≤ atol) {Ts : List (Tri K)} {A B : Pt K} (h : Ready atol Ts A B)
    {ss ss' : List (Seg K)} (he : lineSegments sq rtol atol Ts A B = some ss) (he' : lineSegments sq rtol atol Ts B A = some ss') (m : Pt K → K × K) :
    flow m ss' = -flow m ss := by
  have h' := ready_symm h
  rw [flow_keys hs hr ha h he m, flow_keys hs hr ha h' he' m]
  have incl : ∀ {A B : Pt K} {ss ss' : List (Seg K)}, Ready atol Ts A B → lineSegments sq rtol atol Ts A B = some ss →
      lineSegments sq rtol atol Ts B A = some ss' → ∀ e, e ∈ ss.map (fun u => (u.p, u.q)) → e.swap ∈ ss'.map (fun u => (u.p, u.q)) := by
    intro A B ss ss' h he he' e hmem
    obtain ⟨u, hu, rfl⟩ := List.mem_map.mp hmem
    obtain ⟨s1, e1, -, hsound, -⟩ := C81_segments hs hr ha h
    rw [he] at e1
    obtain rfl := Option.some.inj e1
    obtain ⟨s2, e2, -, -, hcomp⟩ := C81_segments hs hr ha (ready_symm h)
    rw [he'] at e2
    obtain rfl := Option.some.inj e2
    obtain ⟨T, s, t, hj, hch, hin, hp, hq, -⟩ := hsound u hu
    obtain ⟨v, hv, v1, v2⟩ := hcomp _ T _ _ hj (chord_symm hch) (fun hh => hin ⟨hh.2, hh.1⟩)
    refine List.mem_map.mpr ⟨v, hv, ?_⟩
    rw [v1, v2, along_symm, along_symm, hp, hq]
    rfl
  obtain ⟨s1, e1, n1, -, -⟩ := C81_segments hs hr ha h
  rw [he] at e1
  obtain rfl := Option.some.inj e1
  obtain ⟨s2, e2, n2, -, -⟩ := C81_segments hs hr ha h'
  rw [he'] at e2
  obtain rfl := Option.some.inj e2
  have hperm : (ss'.map fun u => (u.p, u.q)).Perm ((ss.map fun u => (u.p, u.q)).map Prod.swap) := by
    refine (List.perm_ext_iff_of_nodup n2 (n1.map Prod.swap_injective)).mpr fun e => ?_
    constructor
    · intro hm
      exact List.mem_map.mpr ⟨e.swap, incl h' he' he e hm, Prod.swap_swap e⟩
    · intro hm
      obtain ⟨f, hf, rfl⟩ := List.mem_map.mp hm
      exact incl h he he' f hf
  rw [(hperm.map (through m)).sum_eq]
  generalize (ss.map fun u => (u.p, u.q)) = L
  induction L with
  | nil => simp
  | cons e L ih =>
    simp only [List.map_cons, List.sum_cons, ih]
    have : through m e.swap = -through m e := by
      unfold through exact
      simp only [Prod.fst_swap, Prod.snd_swap]
      rw [add_comm e.2.x, add_comm e.2.y]
      ring
    rw [this]
    ring

theorem lines_append (l : List (Pt K)) (x y : Pt K) : lines (l ++ [x, y]) = lines (l ++ [x]) ++ [(x, y)] := by
  induction l with
  | nil => rfl
  | cons a l ih =>
    cases l with
    | nil => rfl
    | cons b l =>
      have h1 : lines (a :: b :: l ++ [x, y]) = (a, b) :: lines (b :: l ++ [x, y]) := rfl
      have h2 : lines (a :: b :: l ++ [x]) = (a, b) :: lines (b :: l ++ [x]) := rfl
      rw [h1, h2, ih]
      rfl

theorem lines_reverse : ∀ l : List (Pt K), lines l.reverse = ((lines l).map Prod.swap).reverse
  | [] => rfl
  | [_] => rfl
  | A :: B :: l => by
    have ih := lines_reverse (B :: l)
    have h1 : lines (A :: B :: l) = (A, B) :: lines (B :: l) := rfl
    have h2 : (A :: B :: l).reverse = l.reverse ++ [B, A] := by simp
    rw [h1, h2, lines_append, List.map_cons, List.reverse_cons (a := (A, B).swap), ← ih, List.reverse_cons]
    rfl

/-- **C81.** The same for polylines. -/
theorem C81_direction_polyline {sq : K → K} (hs : IsSqrt sq) {rtol atol : K} (hr : 0 ≤ rtol) (ha : 0 ≤ atol) {Ts : List (Tri K)} {l : List (Pt K)}
    (h : ∀ e ∈ lines l, Ready atol Ts e.1 e.2) {ss ss' : List (Seg K)} (he : segments sq rtol atol Ts l = some ss)
    (he' : segments sq rtol atol Ts l.reverse = some ss') (m : Pt K → K × K) : flow m ss' = -flow m ss := by
  set g : Pt K × Pt K → K := fun e => match lineSegments sq rtol atol Ts e.1 e.2 with | some s => flow m s | none => 0 with hg
  have hg' : ∀ e s, lineSegments sq rtol atol Ts e.1 e.2 = some s → flow m s = g e := by
    intro e s hs
    simp only [hg, hs]
  rw [parts_flow m l ss (segments_parts he) g fun e _ s hs => hg' e s hs,
    parts_flow m l.reverse ss' (segments_parts he') g fun e _ s hs => hg' e s hs, lines_reverse]
  rw [List.map_reverse, List.sum_reverse, List.map_map]
  have : ∀ L : List (Pt K × Pt K), (∀ e ∈ L, Ready atol Ts e.1 e.2) → (L.map (g ∘ Prod.swap)).sum = -(L.map g).sum := by
    intro L hL
    induction L with
    | nil => simp
    | cons e L ih =>
      rw [List.map_cons, List.map_cons, List.sum_cons, List.sum_cons, ih fun e he => hL e (List.mem_cons_of_mem _ he)]
      have hR := hL e (by simp)
      obtain ⟨s, e1, -⟩ := C81_segments (rtol := rtol) hs hr ha hR
      obtain ⟨s', e2, -⟩ := C81_segments (rtol := rtol) hs hr ha (ready_symm hR)
      have := C81_direction hs hr ha hR e1 e2 m
      rw [hg' e s e1, hg' e.swap s' e2] at this
      rw [Function.comp_apply, this]
      ring
  exact this _ h

/-! ## Several cross sections, energy -/

/-- **C81.** Several cross sections at once give what they give one by one. -/
theorem C81_several (m : Pt K → K × K) (sections : List (List (Seg K))) :
    flows ((sections.flatMap fun ss => ss.map Seg.mid).map m) 0 sections = sections.map (flow m) := by
  have main : ∀ (rest : List (List (Seg K))) (pre : List (K × K)),
      flows (pre ++ (rest.flatMap fun ss => ss.map Seg.mid).map m) pre.length rest = rest.map (flow m) := by
    intro rest
    induction rest with
    | nil => intro pre; rfl
    | cons ss rest ih =>
      intro pre
      unfold flows
      rw [List.map_cons]
      congr 1
      · rw [List.drop_left, List.flatMap_cons, List.map_append, List.map_map]
        unfold flow
        congr 1
        have : ∀ (a c : List (K × K)) (b : List (Seg K)), a.length = b.length → (a ++ c).zip b = a.zip b := by
          intro a
          induction a with
          | nil => intro c b hb; cases b with | nil => simp | cons => simp at hb
          | cons x a iha =>
            intro c b hb
            cases b with
            | nil => simp at hb
            | cons y b => simp only [List.cons_append, List.zip_cons_cons, iha c b (by simpa using hb)]
        exact this _ _ _ (by simp)
      · have := ih (pre ++ ss.map fun s => m s.mid)
        rw [List.length_append, List.length_map] at this
        rw [← this]
        congr 1
        rw [List.flatMap_cons, List.map_append, List.map_map, List.append_assoc]
        rfl
  exact main sections []

theorem fold_sum (f : Seg K → K) (ss : List (Seg K)) (x : K) : ss.foldl (fun e s => e + f s) x = x + (ss.map f).sum := by
  induction ss generalizing x with
  | nil => simp
  | cons s ss ih => rw [List.foldl_cons, ih, List.map_cons, List.sum_cons, add_assoc]

theorem weights (f : Seg K → K) (ss : List (Seg K)) (c : K) : (ss.map fun s => f s / c).sum = (ss.map f).sum / c := by
  induction ss with
  | nil => simp
  | cons s ss ih => rw [List.map_cons, List.map_cons, List.sum_cons, List.sum_cons, ih, add_div]

/-- **C81.** The energy is an average of the heads at the segments: it lies between bounds for these. -/
theorem C81_energy_bounds (g epsilon h0 : K) (kind : Kind) (val : Pt K → Val K) {ss : List (Seg K)} (hne : ss ≠ []) (hlen : ∀ s ∈ ss, 0 < s.length)
    {lo hi : K} (hb : ∀ s ∈ ss, lo ≤ head g epsilon h0 kind (val s.mid) ∧ head g epsilon h0 kind (val s.mid) ≤ hi) :
    lo ≤ energy g epsilon h0 kind val ss ∧ energy g epsilon h0 kind val ss ≤ hi := by
  unfold energy
  simp only [fold_sum, zero_add]
  set len := (ss.map fun s => s.length).sum with hl
  have hpos : 0 < len := by
    rw [hl]
    exact List.sum_pos _ (by intro x hx; obtain ⟨s, hs, rfl⟩ := List.mem_map.mp hx; exact hlen s hs) (by simpa using hne)
  have one : (ss.map fun s => s.length / len).sum = 1 := by
    rw [weights (fun s => s.length), ← hl, div_self hpos.ne']
  have hc : ∀ c : K, c = (ss.map fun s => c * (s.length / len)).sum := by
    intro c
    rw [List.sum_map_mul_left, one, mul_one]
  constructor
  · rw [hc lo]
    refine List.sum_le_sum fun s hs => ?_
    exact mul_le_mul_of_nonneg_right (hb s hs).1 (div_nonneg (hlen s hs).le hpos.le)
  · rw [hc hi]
    refine List.sum_le_sum fun s hs => ?_
    exact mul_le_mul_of_nonneg_right (hb s hs).2 (div_nonneg (hlen s hs).le hpos.le)

/-- **C81.** Water at rest: the total energy is the level of the water and the flow is nought. -/
theorem C81_rest (g epsilon h0 : K) (val : Pt K → Val K) {ss : List (Seg K)} (hne : ss ≠ []) (hlen : ∀ s ∈ ss, 0 < s.length) {level : K}
    (hv : ∀ p, (val p).w = level ∧ (val p).uh = 0 ∧ (val p).vh = 0) :
    energy g epsilon h0 .total val ss = level ∧ flow (fun p => ((val p).uh, (val p).vh)) ss = 0 := by
  have hh : ∀ p, head g epsilon h0 .total (val p) = level := by
    intro p
    obtain ⟨h1, h2, h3⟩ := hv p
    simp [head, h1, h2, h3]
  constructor
  · obtain ⟨h1, h2⟩ := C81_energy_bounds g epsilon h0 .total val hne hlen (lo := level) (hi := level) fun s _ => by rw [hh]; simp
    exact le_antisymm h2 h1
  · rw [flow_eq]
    have : (ss.map fun u => (((val u.mid).uh) * u.normal.1 + ((val u.mid).vh) * u.normal.2) * u.length) = ss.map fun _ => 0 :=
      List.map_congr_left fun u _ => by rw [(hv u.mid).2.1, (hv u.mid).2.2]; ring
    rw [this]
    simp

/-- **C81.** Water of depth `h` with velocity `(u, v)` everywhere, no velocity protection: the specific energy is `h + (u² + v²) / 2g`. -/
theorem C81_specific {g epsilon : K} (val : Pt K → Val K) {ss : List (Seg K)} (hne : ss ≠ []) (hlen : ∀ s ∈ ss, 0 < s.length) {h u v : K}
    (he : 0 ≤ epsilon) (hh : epsilon < h) (hv : ∀ p, (val p).w - (val p).z = h ∧ (val p).uh = u * h ∧ (val p).vh = v * h) :
    energy g epsilon 0 .specific val ss = h + (u ^ 2 + v ^ 2) / (2 * g) := by
  have h0 : h ≠ 0 := (lt_of_le_of_lt he hh).ne'
  have key : ∀ p, head g epsilon 0 .specific (val p) = h + (u ^ 2 + v ^ 2) / (2 * g) := by
    intro p
    obtain ⟨h1, h2, h3⟩ := hv p
    simp only [head, h1, h2, h3, gt_iff_lt, hh, if_true, zero_div, add_zero, mul_div_cancel_right₀ _ h0]
    rw [mul_comm 2 g, ← div_div]
    ring
  obtain ⟨a, b⟩ := C81_energy_bounds g epsilon 0 .specific val hne hlen (lo := h + (u ^ 2 + v ^ 2) / (2 * g)) (hi := h + (u ^ 2 + v ^ 2) / (2 * g))
    fun s _ => by rw [key]; simp
  exact le_antisymm b a

/-- **C81, a limit of the code.** A part of the line with both ends strictly inside one triangle is dropped: no segment comes from that triangle. Of a
polyline of such parts nothing remains and the call stops with an error. -/
theorem C81_inner_part_is_lost {sq : K → K} (hs : IsSqrt sq) {rtol atol : K} (hr : 0 ≤ rtol) (ha : 0 ≤ atol) {T : Tri K} {A B : Pt K}
    (h : Ready atol [T] A B) (hA : T.Inner A) (hB : T.Inner B) :
    lineSegments sq rtol atol [T] A B = some [] ∧ segments sq rtol atol [T] [A, B] = none := by
  obtain ⟨ss, he, -, hsound, -⟩ := C81_segments hs hr ha h
  have : ss = [] := by
    cases ss with
    | nil => rfl
    | cons u ss =>
      exfalso
      obtain ⟨T', s, t, hj, -, hin, -⟩ := hsound u (by simp)
      obtain ⟨hlt, rfl⟩ := List.getElem?_eq_some_iff.mp hj
      have : T = [T][u.tri] := by
        have : u.tri = 0 := by simpa using hlt
        simp [this]
      rw [← this] at hin
      exact hin ⟨hA, hB⟩
  subst this
  refine ⟨he, ?_⟩
  unfold segments
  simp [parts, he]

/-- **C81, a limit of the code.** In a longer polyline such a part is left out without notice. -/
theorem C81_inner_part_is_silent {sq : K → K} (hs : IsSqrt sq) {rtol atol : K} (hr : 0 ≤ rtol) (ha : 0 ≤ atol) {T : Tri K} {A B C : Pt K} {l : List (Pt K)}
    (h : Ready atol [T] A B) (hA : T.Inner A) (hB : T.Inner B) :
    segments sq rtol atol [T] (A :: B :: C :: l) = segments sq rtol atol [T] (B :: C :: l) := by
  have h1 := (C81_inner_part_is_lost hs hr ha h hA hB).1
  have h2 : parts sq rtol atol [T] (A :: B :: C :: l) = parts sq rtol atol [T] (B :: C :: l) := by
    conv_lhs => unfold parts
    rw [h1]
    simp
  unfold segments
  rw [h2, if_pos (by simp), if_pos (by simp)]

end Verif.Cross
