import Verif.Gate.LemmasCurve

/-!
# C72: rating tables
-/

namespace Verif.Gate

set_option linter.unusedSectionVars false

variable {K : Type*} [Field K] [LinearOrder K] [IsStrictOrderedRing K]

/-! ## Reading a table -/

/-- Rows with the same head water are reduced to one: that with the smallest discharge, except for the largest head water, where it is that with
the largest discharge. Blanks at the end are dropped. -/
theorem C72_repeated {l : List (K × K)} (h : Rows l) (m : ℕ) :
    Kept l (removeRepeated (padded l m)) := by
  unfold Kept
  set res := removeRepeated (padded l m)
  by_cases hne : l = []
  · subst hne
    have e : res = [] := keepRows_none _ _ none m
    rw [e]
    exact ⟨List.isChain_nil, List.Sublist.refl _, fun p hp => by cases hp⟩
  · obtain ⟨b, hb⟩ : ∃ b, l.getLast? = some b := ⟨_, List.getLast?_eq_some_getLast hne⟩
    have hbm := List.mem_of_getLast? hb
    have hl := rows_last h hb
    have e1 : nanmax Prod.fst (padded l m) = b.1 := nanmax_eq _ hbm (fun q hq => (hl q hq).1) m
    have e2 : nanmax Prod.snd (padded l m) = b.2 := nanmax_eq _ hbm (fun q hq => (hl q hq).2) m
    have e : res = keepRows b.1 b.2 none (padded l m) := by
      show keepRows _ _ none _ = _
      rw [e1, e2]
    obtain ⟨k1, k2, -, k4⟩ := keepRows_spec b.1 b.2 m l none h (fun c hc => by rw [hb] at hc; exact (Option.some.inj hc).symm)
      (fun a ha => by cases ha)
    rw [e]
    refine ⟨k1, k2, fun p hp => ?_⟩
    rcases k4 p hp with ⟨-, hx⟩ | ⟨r, hr, r1, r2, r3⟩
    · cases hx
    · refine ⟨r, hr, r1, fun p' hp' he => ⟨?_, ?_⟩⟩
      · rintro ⟨q, hq, hlt⟩
        rcases k4 p' hp' with ⟨-, hx⟩ | ⟨r', hr', s1, s2, -⟩
        · cases hx
        · have hne' : p'.1 ≠ b.1 := by
            rw [he]
            exact (hlt.trans_le (hl q hq).1).ne
          have hrr : r = r' := by
            have hchain : ∀ (L : List (K × K)), Rising L → ∀ x ∈ L, ∀ y ∈ L, x.1 = y.1 → x = y := by
              intro L
              induction L with
              | nil => intro _ x hx; cases hx
              | cons z L ih =>
                intro hL x hx y hy hxy
                have hz : ∀ w ∈ L, z.1 < w.1 := by
                  cases L with
                  | nil => intro w hw; cases hw
                  | cons u L =>
                    obtain ⟨a1, a2⟩ := rising_cons.mp hL
                    intro w hw
                    exact a1.1.trans_le (rising_head_le a2 w hw).1
                rcases List.mem_cons.mp hx with rfl | hx' <;> rcases List.mem_cons.mp hy with rfl | hy'
                · rfl
                · exact absurd hxy (hz y hy').ne
                · exact absurd hxy (hz x hx').ne'
                · exact ih (List.IsChain.tail hL) x hx' y hy' hxy
            exact hchain _ k1 r hr r' hr' (by rw [r1, s1, he])
          rw [hrr]
          exact s2 hne'
      · intro hmax
        have hpb : p.1 = b.1 := le_antisymm (hl p hp).1 (hmax b hbm)
        rw [r3 hpb]
        exact (hl p' hp').2

/-- Rows of a column: in order, starting without flow, with some range of head water. -/
def Col (c : List (K × K)) (tw hwMax : K) : Prop :=
  Rows c ∧ c.head? = some (tw, 0) ∧ (c.getLast?).map Prod.fst = some hwMax ∧ tw < hwMax

theorem rising_last {l : List (K × K)} (h : Rising l) {b : K × K} (hb : l.getLast? = some b) : ∀ q ∈ l, q.1 ≤ b.1 ∧ q.2 ≤ b.2 :=
  rows_last (List.IsChain.imp (fun _ _ h => ⟨h.1.le, h.2⟩) h) hb

/-- First and last of the points kept. -/
theorem removeRepeated_ends {l : List (K × K)} (h : Rows l) (m : ℕ) {a b : K × K} (ha : l.head? = some a) (hb : l.getLast? = some b) (hab : a.1 < b.1) :
    (removeRepeated (padded l m)).head? = some a ∧ ((removeRepeated (padded l m)).getLast?).map Prod.fst = some b.1 := by
  obtain ⟨h1, h2, h3⟩ := C72_repeated h m
  have hbm := List.mem_of_getLast? hb
  have ham := List.mem_of_mem_head? ha
  have hl := rows_last h hb
  have hmin : ∀ q ∈ l, a.1 ≤ q.1 ∧ a.2 ≤ q.2 := by
    cases l with
    | nil => cases ha
    | cons p l =>
      obtain rfl := Option.some.inj ha
      intro q hq
      rcases List.mem_cons.mp hq with rfl | hq
      · exact ⟨le_rfl, le_rfl⟩
      · exact ⟨(rows_head h q hq).1, (rows_head h q hq).2.le⟩
  constructor
  · obtain ⟨r, hr, r1, r2⟩ := h3 a ham
    have hra : r = a := Prod.ext r1 (le_antisymm ((r2 a ham rfl).1 ⟨b, hbm, hab⟩) (hmin r (h2.subset hr)).2)
    rw [hra] at hr
    cases hres : removeRepeated (padded l m) with
    | nil => rw [hres] at hr; cases hr
    | cons p L =>
      rw [hres] at hr h1 h2
      have h4 := rising_head_le h1 a hr
      have h5 := hmin p (h2.subset List.mem_cons_self)
      rw [List.head?_cons]
      exact congrArg some (Prod.ext (le_antisymm h4.1 h5.1) (le_antisymm h4.2 h5.2))
  · obtain ⟨r, hr, r1, -⟩ := h3 b hbm
    have hne : removeRepeated (padded l m) ≠ [] := List.ne_nil_of_mem hr
    obtain ⟨c, hc⟩ : ∃ c, (removeRepeated (padded l m)).getLast? = some c := ⟨_, List.getLast?_eq_some_getLast hne⟩
    have h4 := (rising_last h1 hc r hr).1
    have h5 := (hl c (h2.subset (List.mem_of_getLast? hc))).1
    rw [hc, Option.map_some, le_antisymm h5 (r1 ▸ h4)]

theorem col_ok {c : List (K × K)} {tw hm : K} (h : Col c tw hm) (m : ℕ) :
    nanmax Prod.fst (padded c m) = hm ∧ (⟨tw, hm, removeRepeated (padded c m)⟩ : Curve K).Ok := by
  obtain ⟨h1, h2, h3, h4⟩ := h
  obtain ⟨b, hb, hbm⟩ := Option.map_eq_some_iff.mp h3
  have e := removeRepeated_ends h1 m h2 hb (by rw [hbm]; exact h4)
  refine ⟨?_, (C72_repeated h1 m).1, e.1, ?_, h4⟩
  · rw [nanmax_eq Prod.fst (List.mem_of_getLast? hb) (fun q hq => (rows_last h1 hb q hq).1) m, hbm]
  · rw [e.2, hbm]

theorem shift_padded (z : K) (l : List (K × K)) (m : ℕ) : shift z (padded l m) = padded (l.map fun p => (p.1 + z, p.2)) m := by
  unfold shift padded
  simp only [List.map_append, List.map_map, List.map_replicate, Option.map_none]
  rfl

theorem rows_shift (z : K) {l : List (K × K)} (h : Rows l) : Rows (l.map fun p => (p.1 + z, p.2)) := by
  unfold Rows
  rw [List.isChain_map]
  exact List.IsChain.imp (fun a b hab => ⟨add_le_add_left hab.1 z, hab.2⟩) h

theorem col_shift (z : K) {c : List (K × K)} {tw hm : K} (h : Col c tw hm) : Col (c.map fun p => (p.1 + z, p.2)) (tw + z) (hm + z) := by
  obtain ⟨h1, h2, h3, h4⟩ := h
  refine ⟨rows_shift z h1, ?_, ?_, by linarith⟩
  · rw [List.head?_map, h2]; rfl
  · rw [List.getLast?_map]
    obtain ⟨b, hb, hbm⟩ := Option.map_eq_some_iff.mp h3
    rw [hb, Option.map_some, Option.map_some, hbm]

/-- A column of a table: rows, number of blanks, tail water, largest head water. -/
structure Column (K : Type*) where
  rows : List (K × K)
  blanks : ℕ
  tw : K
  hwMax : K

theorem readCurves_ok (L : List (Column K)) (h : ∀ c ∈ L, Col c.rows c.tw c.hwMax) :
    readCurves (L.map fun c => padded c.rows c.blanks) = some (L.map fun c => ⟨c.tw, c.hwMax, removeRepeated (padded c.rows c.blanks)⟩) := by
  induction L with
  | nil => rfl
  | cons c L ih =>
    have hc := h c List.mem_cons_self
    obtain ⟨e1, e2⟩ := col_ok hc c.blanks
    obtain ⟨h1, h2, h3, h4⟩ := hc
    obtain ⟨p, l, hrows⟩ : ∃ p l, c.rows = p :: l := by
      cases hr : c.rows with
      | nil => rw [hr] at h2; cases h2
      | cons p l => exact ⟨p, l, rfl⟩
    have hp : p = (c.tw, 0) := by
      rw [hrows] at h2
      exact Option.some.inj h2
    have hpad : padded c.rows c.blanks = some p :: padded l c.blanks := by rw [hrows]; rfl
    rw [List.map_cons, List.map_cons]
    unfold readCurves
    rw [hpad]
    simp only
    rw [← hpad, e1, if_pos (by rw [hp]), if_neg (by rw [hp]; exact h4.ne'), ih fun c hc => h c (List.mem_cons_of_mem _ hc), hp]
    rfl

theorem foldl_min (z : K) (l : List (K × K)) : ∀ m : K, (∀ q ∈ l, m ≤ q.1 + z) → l.foldl (fun m q => min m (q.1 + z)) m = m := by
  induction l with
  | nil => exact fun m _ => rfl
  | cons a l ih =>
    intro m h
    rw [List.foldl_cons, min_eq_left (h a List.mem_cons_self)]
    exact ih m fun q hq => h q (List.mem_cons_of_mem _ hq)

/-- A table whose columns are in order is accepted, with the datum added to all head waters, and gives curves that are in order. -/
theorem C72_build (z : K) {free : List (K × K)} {lo q0 hi : K} (hf : Rows free) (hlo : free.head? = some (lo, q0)) (hq : 0 ≤ q0)
    (hhi : (free.getLast?).map Prod.fst = some hi) (hlh : lo < hi) (L : List (Column K)) (hL : ∀ c ∈ L, Col c.rows c.tw c.hwMax)
    (htw : L.IsChain fun a b => a.tw < b.tw) :
    ∃ r, build z free (L.map fun c => padded c.rows c.blanks) = some r ∧ r.Ok ∧ r.lo = lo + z ∧ r.hi = hi + z ∧
      Kept (free.map fun p => (p.1 + z, p.2)) r.free ∧
      List.Forall₂ (fun c C => C.tw = c.tw + z ∧ C.hwMax = c.hwMax + z ∧ Kept (c.rows.map fun p => (p.1 + z, p.2)) C.data) L r.curves := by
  obtain ⟨p, l, rfl⟩ : ∃ p l, free = p :: l := by
    cases free with
    | nil => cases hlo
    | cons p l => exact ⟨p, l, rfl⟩
  have hp : p = (lo, q0) := Option.some.inj hlo
  obtain ⟨b, hb, hbm⟩ := Option.map_eq_some_iff.mp hhi
  let L' : List (Column K) := L.map fun c => ⟨c.rows.map fun p => (p.1 + z, p.2), c.blanks, c.tw + z, c.hwMax + z⟩
  have hcs : (L.map fun c => padded c.rows c.blanks).map (shift z) = L'.map fun c => padded c.rows c.blanks := by
    rw [List.map_map, List.map_map]
    apply List.map_congr_left
    intro c _
    exact shift_padded z c.rows c.blanks
  have hL' : ∀ c ∈ L', Col c.rows c.tw c.hwMax := by
    intro c hc
    obtain ⟨d, hd, rfl⟩ := List.mem_map.mp hc
    exact col_shift z (hL d hd)
  have htw' : L'.IsChain fun a b => a.tw < b.tw := by
    rw [List.isChain_map]
    exact List.IsChain.imp (fun a b h => by simpa using h) htw
  have hheads : ((L'.map fun c => padded c.rows c.blanks).filterMap fun c => (c.head?.bind id).map Prod.fst) = L'.map Column.tw := by
    rw [List.filterMap_map]
    have : ∀ M : List (Column K), (∀ c ∈ M, Col c.rows c.tw c.hwMax) →
        M.filterMap ((fun c => (c.head?.bind id).map Prod.fst) ∘ fun c => padded c.rows c.blanks) = M.map Column.tw := by
      intro M
      induction M with
      | nil => exact fun _ => rfl
      | cons c M ih =>
        intro h
        obtain ⟨-, h2, -, -⟩ := h c List.mem_cons_self
        have : ((padded c.rows c.blanks).head?.bind id).map Prod.fst = some c.tw := by
          cases hr : c.rows with
          | nil => rw [hr] at h2; cases h2
          | cons p l =>
            rw [hr] at h2
            rw [Option.some.inj h2]
            rfl
        rw [List.filterMap_cons, Function.comp_apply, this, List.map_cons]
        simp only
        rw [ih fun c hc => h c (List.mem_cons_of_mem _ hc)]
    exact this L' hL'
  have hfree : ((p :: l).map fun q => some (q.1 + z, q.2)) = padded ((p :: l).map fun q => (q.1 + z, q.2)) 0 := by
    unfold padded
    rw [List.map_map, List.replicate_zero, List.append_nil]
    rfl
  have hrs := rows_shift z hf
  have hhd : ((p :: l).map fun q => (q.1 + z, q.2)).head? = some (lo + z, q0) := by rw [List.head?_map, hlo]; rfl
  have hlst : ((p :: l).map fun q => (q.1 + z, q.2)).getLast? = some (b.1 + z, b.2) := by rw [List.getLast?_map, hb]; rfl
  have hends := removeRepeated_ends hrs 0 hhd hlst (show lo + z < b.1 + z by rw [hbm]; linarith)
  have hnm : nanmax Prod.fst (padded ((p :: l).map fun q => (q.1 + z, q.2)) 0) = hi + z := by
    rw [nanmax_eq Prod.fst (List.mem_of_getLast? hlst) (fun q hq => (rows_last hrs hlst q hq).1) 0]
    show b.1 + z = _
    rw [hbm]
  have hmin : l.foldl (fun m q => min m (q.1 + z)) (p.1 + z) = lo + z := by
    rw [foldl_min z l _ fun q hq => add_le_add_left (rows_head hf q hq).1 z, hp]
  refine ⟨⟨removeRepeated (padded ((p :: l).map fun q => (q.1 + z, q.2)) 0), lo + z, hi + z,
    L'.map fun c => ⟨c.tw, c.hwMax, removeRepeated (padded c.rows c.blanks)⟩⟩, ?_, ⟨?_, ?_, ?_, ?_, ?_, ?_⟩, rfl, rfl, C72_repeated hrs 0, ?_⟩
  · unfold build
    simp only
    rw [hcs, hheads, if_pos (by rw [List.isChain_map]; exact htw'), readCurves_ok L' hL', hmin, hfree, hnm]
    rfl
  · exact (C72_repeated hrs 0).1
  · exact ⟨q0, hq, hends.1⟩
  · show _ = some (hi + z)
    rw [hends.2, hbm]
  · show lo + z < hi + z
    linarith
  · show List.IsChain _ (List.map _ L')
    rw [List.isChain_map]
    exact htw'
  · intro c hc
    obtain ⟨d, hd, rfl⟩ := List.mem_map.mp hc
    exact (col_ok (hL' d hd) d.blanks).2
  · show List.Forall₂ _ L (List.map _ (List.map _ L))
    rw [List.map_map, List.forall₂_map_right_iff, List.forall₂_same]
    intro c hc
    exact ⟨rfl, rfl, C72_repeated (rows_shift z (hL c hc).1) c.blanks⟩

end Verif.Gate
