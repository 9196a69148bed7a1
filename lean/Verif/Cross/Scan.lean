import Verif.Cross.Hits
import Verif.Cross.Tile

/-! # The loop over triangles -/

set_option linter.unusedSectionVars false

namespace Verif.Cross

open Verif.Polygon

variable {K : Type*} [Field K] [LinearOrder K] [IsStrictOrderedRing K]

theorem chord_unique {A B : Pt K} {T : Tri K} {s t s' t' : K} (h : Chord A B T s t) (h' : Chord A B T s' t') : s = s' ∧ t = t' := by
  obtain ⟨s0, st, t1, hS⟩ := h
  obtain ⟨s0', st', t1', hS'⟩ := h'
  have e : ∀ r, 0 ≤ r → r ≤ 1 → (s ≤ r ∧ r ≤ t ↔ s' ≤ r ∧ r ≤ t') := fun r r0 r1 => (hS r r0 r1).symm.trans (hS' r r0 r1)
  have a1 := (e s s0 (st.le.trans t1)).mp ⟨le_rfl, st.le⟩
  have a2 := (e t (s0.trans st.le) t1).mp ⟨st.le, le_rfl⟩
  have a3 := (e s' s0' (st'.le.trans t1')).mpr ⟨le_rfl, st'.le⟩
  have a4 := (e t' (s0'.trans st'.le) t1').mpr ⟨st'.le, le_rfl⟩
  exact ⟨le_antisymm a3.1 a1.1, le_antisymm a2.2 a4.2⟩

/-- Squared distance. -/
def dist2 (p q : Pt K) : K := (q.x - p.x) ^ 2 + (q.y - p.y) ^ 2

theorem dist2_pos {A B : Pt K} (h : A ≠ B) : 0 < dist2 A B := by
  unfold dist2
  by_contra hn
  have h1 := sq_nonneg (B.x - A.x)
  have h2 := sq_nonneg (B.y - A.y)
  have e1 : (B.x - A.x) ^ 2 = 0 := by linarith
  have e2 : (B.y - A.y) ^ 2 = 0 := by linarith
  have e3 := pow_eq_zero_iff (two_ne_zero) |>.mp e1
  have e4 := pow_eq_zero_iff (two_ne_zero) |>.mp e2
  apply h
  cases A; cases B
  simp only at e3 e4
  rw [Pt.mk.injEq]
  exact ⟨by linarith, by linarith⟩

theorem sqrt_lt {sq : K → K} (hs : IsSqrt sq) {x y : K} (hx : 0 ≤ x) (h : x < y) : sq x < sq y := by
  obtain ⟨a1, a2⟩ := hs x hx
  obtain ⟨b1, b2⟩ := hs y (hx.trans h.le)
  by_contra hn
  have := mul_le_mul (not_lt.mp hn) (not_lt.mp hn) b1 a1
  linarith

theorem away_along {sq : K → K} (A B : Pt K) (s : K) : away sq (along A B s) A = sq (s ^ 2 * dist2 A B) := by
  unfold away along dist2
  congr 1
  ring

theorem away_lt {sq : K → K} (hs : IsSqrt sq) {A B : Pt K} (hAB : A ≠ B) {s t : K} (s0 : 0 ≤ s) (st : s < t) :
    away sq (along A B s) A < away sq (along A B t) A := by
  have hd := dist2_pos hAB
  rw [away_along, away_along]
  refine sqrt_lt hs (by positivity) (mul_lt_mul_of_pos_right ?_ hd)
  nlinarith

theorem ordered_along {sq : K → K} (hs : IsSqrt sq) {A B : Pt K} (hAB : A ≠ B) {s t : K} (s0 : 0 ≤ s) (st : s < t) :
    ordered sq A (along A B s, along A B t) = (along A B s, along A B t) ∧ ordered sq A (along A B t, along A B s) = (along A B s, along A B t) := by
  have h := away_lt hs hAB s0 st
  unfold ordered
  exact ⟨if_neg (not_lt.mpr h.le), if_pos h⟩

/-- End points of a segment. -/
def Seg.key (s : Seg K) : Pt K × Pt K := (s.p, s.q)

/-- The result of the loop. -/
theorem scan_spec {sq : K → K} (hs : IsSqrt sq) {rtol atol : K} (hr : 0 ≤ rtol) (ha : 0 ≤ atol) {A B : Pt K} (hAB : A ≠ B) :
    ∀ (Ts : List (Tri K)) (i : ℕ) (done : List (Seg K)), (∀ T ∈ Ts, T.Ccw ∧ SharpTri atol A B T) → (done.map Seg.key).Nodup →
    ∃ new, scanTriangles sq rtol atol A B i Ts done = some (done ++ new) ∧ ((done ++ new).map Seg.key).Nodup ∧
      (∀ u ∈ new, ∃ j T s t, Ts[j]? = some T ∧ Chord A B T s t ∧ ¬ (T.Inner A ∧ T.Inner B) ∧ u = mkSeg sq (i + j) (along A B s, along A B t)) ∧
      (∀ j T s t, Ts[j]? = some T → Chord A B T s t → ¬ (T.Inner A ∧ T.Inner B) →
        ∃ u ∈ done ++ new, u.key = (along A B s, along A B t) ∧ (u ∈ new → u.tri ≤ i + j)) := by
  intro Ts
  induction Ts with
  | nil =>
    intro i done _ hn
    exact ⟨[], by simp [scanTriangles], by simpa using hn, by simp, by simp⟩
  | cons T Ts ih =>
    intro i done hT hn
    have hTs : ∀ T ∈ Ts, T.Ccw ∧ SharpTri atol A B T := fun T' h' => hT T' (List.mem_cons_of_mem _ h')
    have shift : ∀ {new : List (Seg K)}, (∀ u ∈ new, ∃ j T' s t, Ts[j]? = some T' ∧ Chord A B T' s t ∧ ¬ (T'.Inner A ∧ T'.Inner B) ∧
        u = mkSeg sq (i + 1 + j) (along A B s, along A B t)) → ∀ u ∈ new, ∃ j T' s t, (T :: Ts)[j]? = some T' ∧ Chord A B T' s t ∧
        ¬ (T'.Inner A ∧ T'.Inner B) ∧ u = mkSeg sq (i + j) (along A B s, along A B t) := by
      intro new h u hu
      obtain ⟨j, T', s, t, h1, h2, h3, h4⟩ := h u hu
      exact ⟨j + 1, T', s, t, by simpa using h1, h2, h3, by rw [h4]; congr 1; omega⟩
    unfold scanTriangles
    rcases contribution_spec hs hr ha hAB (hT T (by simp)).1 (hT T (by simp)).2 with ⟨hc, hno⟩ | ⟨s, t, hch, hin, hc⟩
    · rw [hc]
      simp only [Option.bind_some]
      obtain ⟨new, h1, h2, h3, h4⟩ := ih (i + 1) done hTs hn
      refine ⟨new, h1, h2, shift h3, ?_⟩
      intro j T' s t hj hch hin
      cases j with
      | zero =>
        simp only [List.getElem?_cons_zero, Option.some.injEq] at hj
        subst hj
        rcases hno with hno | hno
        · exact absurd hch (hno s t)
        · exact absurd hno hin
      | succ j =>
        obtain ⟨u, hu, hk, hle⟩ := h4 j T' s t (by simpa using hj) hch hin
        exact ⟨u, hu, hk, fun hh => by have := hle hh; omega⟩
    · have hord : ∀ e, (e = (along A B s, along A B t) ∨ e = (along A B t, along A B s)) → ordered sq A e = (along A B s, along A B t) := by
        have := ordered_along (sq := sq) hs hAB hch.1 hch.2.1
        rintro e (rfl | rfl)
        · exact this.1
        · exact this.2
      obtain ⟨e, he, hc'⟩ : ∃ e, (e = (along A B s, along A B t) ∨ e = (along A B t, along A B s)) ∧
          contribution sq rtol atol A B T = some (some e) := by
        rcases hc with hc | hc
        · exact ⟨_, Or.inl rfl, hc⟩
        · exact ⟨_, Or.inr rfl, hc⟩
      rw [hc']
      simp only [Option.bind_some, hord e he]
      have hkey : ((mkSeg sq i (along A B s, along A B t)).p, (mkSeg sq i (along A B s, along A B t)).q) = (along A B s, along A B t) := rfl
      rw [hkey]
      split_ifs with hmem
      · obtain ⟨new, h1, h2, h3, h4⟩ := ih (i + 1) done hTs hn
        refine ⟨new, h1, h2, shift h3, ?_⟩
        intro j T' s' t' hj hch' hin'
        cases j with
        | zero =>
          simp only [List.getElem?_cons_zero, Option.some.injEq] at hj
          subst hj
          obtain ⟨rfl, rfl⟩ := chord_unique hch hch'
          obtain ⟨u, hu, hk⟩ := List.mem_map.mp hmem
          refine ⟨u, List.mem_append_left _ hu, hk, fun hh => ?_⟩
          -- the key would occur twice
          exfalso
          rw [List.map_append, List.nodup_append] at h2
          exact h2.2.2 _ (List.mem_map_of_mem hu) _ (List.mem_map_of_mem hh) rfl
        | succ j =>
          obtain ⟨u, hu, hk, hle⟩ := h4 j T' s' t' (by simpa using hj) hch' hin'
          exact ⟨u, hu, hk, fun hh => by have := hle hh; omega⟩
      · have hn' : ((done ++ [mkSeg sq i (along A B s, along A B t)]).map Seg.key).Nodup := by
          rw [List.map_append, List.nodup_append]
          refine ⟨hn, by simp, ?_⟩
          intro x hx y hy
          simp only [List.map_cons, List.map_nil, List.mem_singleton] at hy
          rintro rfl
          apply hmem
          rw [hy] at hx
          exact hx
        obtain ⟨new, h1, h2, h3, h4⟩ := ih (i + 1) _ hTs hn'
        refine ⟨mkSeg sq i (along A B s, along A B t) :: new, by rw [h1]; simp, by simpa using h2, ?_, ?_⟩
        · intro u hu
          rcases List.mem_cons.mp hu with rfl | hu
          · exact ⟨0, T, s, t, rfl, hch, hin, rfl⟩
          · exact shift h3 u hu
        · intro j T' s' t' hj hch' hin'
          cases j with
          | zero =>
            simp only [List.getElem?_cons_zero, Option.some.injEq] at hj
            subst hj
            obtain ⟨rfl, rfl⟩ := chord_unique hch hch'
            exact ⟨mkSeg sq i (along A B s, along A B t), by simp, rfl, fun _ => le_rfl⟩
          | succ j =>
            obtain ⟨u, hu, hk, hle⟩ := h4 j T' s' t' (by simpa using hj) hch' hin'
            refine ⟨u, by simpa using hu, hk, fun hh => ?_⟩
            rcases List.mem_cons.mp hh with rfl | hh
            · show i ≤ _
              omega
            · have := hle hh
              omega

/-- Two chords of a conforming mesh coincide or meet at most in a point. -/
theorem chords_apart {Ts : List (Tri K)} (hc : Conform Ts) (hccw : ∀ T ∈ Ts, T.Ccw) {A B : Pt K} (hAB : A ≠ B) {i j : ℕ} {T T' : Tri K}
    (hi : Ts[i]? = some T) (hj : Ts[j]? = some T') {s t s' t' : K} (h : Chord A B T s t) (h' : Chord A B T' s' t') (hne : (s, t) ≠ (s', t')) :
    t ≤ s' ∨ t' ≤ s := by
  by_contra hn
  rw [not_or, not_le, not_le] at hn
  obtain ⟨n1, n2⟩ := hn
  have hij : i ≠ j := by
    rintro rfl
    rw [hi] at hj
    obtain rfl := Option.some.inj hj
    obtain ⟨rfl, rfl⟩ := chord_unique h h'
    exact hne rfl
  have hT := hccw T (List.mem_of_getElem? hi)
  have hT' := hccw T' (List.mem_of_getElem? hj)
  obtain ⟨s0, st, t1, hS⟩ := h
  obtain ⟨s0', st', t1', hS'⟩ := h'
  -- two common points
  have lt : max s s' < min t t' := max_lt (lt_min st n2) (lt_min n1 st')
  have b1 : 0 ≤ max s s' := s0.trans (le_max_left _ _)
  have b2 : min t t' ≤ 1 := (min_le_left _ _).trans t1
  have hp : T.Has (along A B (max s s')) := (hS _ b1 (lt.le.trans b2)).mpr ⟨le_max_left _ _, lt.le.trans (min_le_left _ _)⟩
  have hq : T.Has (along A B (min t t')) := (hS _ (b1.trans lt.le) b2).mpr ⟨(le_max_left _ _).trans lt.le, min_le_left _ _⟩
  have hp' : T'.Has (along A B (max s s')) := (hS' _ b1 (lt.le.trans b2)).mpr ⟨le_max_right _ _, lt.le.trans (min_le_right _ _)⟩
  have hq' : T'.Has (along A B (min t t')) := (hS' _ (b1.trans lt.le) b2).mpr ⟨(le_max_right _ _).trans lt.le, min_le_right _ _⟩
  obtain ⟨U, V, e1, e2, o1, o2⟩ := hc i j T T' hij hi hj _ _ (fun hh => lt.ne (along_inj hAB hh)) hp hq hp' hq'
  -- the line runs along the edge
  have zero : ∀ (X : Tri K), X.Ccw → X.Edge U V → ∀ r, X.Has (along A B r) ↔ OnSeg (along A B r) U V := by
    intro X hX he r
    have main : ∀ e ∈ X.sides, OnSeg (along A B (max s s')) e.1 e.2 → OnSeg (along A B (min t t')) e.1 e.2 → (X.Has (along A B r) ↔ OnSeg (along A B r) e.1 e.2) := by
      intro e he o1 o2
      have z1 := ((onSide_iff hX he _).mp o1).2
      have z2 := ((onSide_iff hX he _).mp o2).2
      rw [ori_along] at z1 z2
      have hd : (min t t' - max s s') * (ori e.1 e.2 B - ori e.1 e.2 A) = 0 := by linear_combination z2 - z1
      have hd' := (mul_eq_zero.mp hd).resolve_left (sub_pos.mpr lt).ne'
      rw [onSide_iff hX he, ori_along, hd']
      rw [hd'] at z1
      constructor
      · intro hh; exact ⟨hh, by linarith⟩
      · exact fun hh => hh.1
    have sym : ∀ {p u v : Pt K}, OnSeg p u v → OnSeg p v u := by
      rintro p u v ⟨k, k0, k1, kx, ky⟩
      exact ⟨1 - k, by linarith, by linarith, by rw [kx]; ring, by rw [ky]; ring⟩
    rcases he with he | he
    · exact main _ he o1 o2
    · rw [main _ he (sym o1) (sym o2)]
      exact ⟨sym, sym⟩
  apply hne
  have : Chord A B T' s t := ⟨s0, st, t1, fun r r0 r1 => by rw [← hS r r0 r1, zero T hT e1, zero T' hT' e2]⟩
  obtain ⟨rfl, rfl⟩ := chord_unique this ⟨s0', st', t1', hS'⟩
  rfl

end Verif.Cross
