import Verif.Wall.Ends

/-!
# C82: river walls
-/

set_option linter.unusedSectionVars false

namespace Verif.Wall

variable {K : Type*} [Field K] [LinearOrder K] [IsStrictOrderedRing K]
variable {sq : K → K} {D : Dom K} {maxFloat tol : K} {verbose : Bool} {walls : List (String × List (Pt3 K))} {par : List (String × List (String × K))}
  {dflt : List (String × K)} {s s' : St K}

/-- Defaults in force. -/
def inForce (s : St K) (dflt : List (String × K)) : List (String × K) :=
  (if s.names.length > 0 then standard else s.default).map fun e => (e.1, (dflt.lookup e.1).getD e.2)

/-- River wall edges found. -/
def found (sq : K → K) (D : Dom K) (maxFloat tol : K) (walls : List (String × List (Pt3 K))) (s : St K) : List ℕ :=
  (List.range (3 * D.n)).filter fun e => decide ((mark sq D maxFloat tol s.flux walls).flux e = 1)

/-- The call in terms of what it found. -/
theorem create_eq (h : D.discontinuous = true) :
    (dflt.any fun e => !has (inForce s dflt) e.1) = true ∧ (create sq D maxFloat tol verbose walls par dflt s).2 = some .unknownDefault ∨
    (dflt.any fun e => !has (inForce s dflt) e.1) = false ∧
      ((∃ err, parError walls (inForce s dflt) par = some err ∧ (create sq D maxFloat tol verbose walls par dflt s).2 = some err) ∨
      parError walls (inForce s dflt) par = none ∧
        let r := (create sq D maxFloat tol verbose walls par dflt s)
        let m := mark sq D maxFloat tol s.flux walls
        let F := found sq D maxFloat tol walls s
        (r.1.flux = m.flux ∧ r.1.elevation = F.map m.elev ∧ r.1.rowIndex = F.map m.row ∧ r.1.edges = F.map (fun e : ℕ => (e : ℤ)) ∧ r.1.number = F.length ∧
          r.1.counter = number 0 ((List.range (3 * D.n)).map m.flux) ∧ r.1.names = walls.map Prod.fst) ∧
        ((∃ err, tableError (walls.map fun w => tableRow par (inForce s dflt) w.1) = some err ∧ r.2 = some err) ∨
          tableError (walls.map fun w => tableRow par (inForce s dflt) w.1) = none ∧
            r.1.table = (walls.map fun w => tableRow par (inForce s dflt) w.1) ∧
            r.2 = if verbose && !connected D F (F.map m.row) walls.length then some .gap else none)) := by
  have hflux : (if s.names.length > 0 then s.init else s).flux = s.flux := by split_ifs <;> rfl
  have hdef : (if s.names.length > 0 then s.init else s).default.map (fun e => (e.1, (dflt.lookup e.1).getD e.2)) = inForce s dflt := by
    unfold inForce
    split_ifs <;> rfl
  unfold create
  simp only [h, Bool.true_eq_false, if_false, hflux, hdef]
  by_cases h1 : (dflt.any fun e => !has (inForce s dflt) e.1) = true
  · left
    simp only [h1, if_true, and_self]
  · right
    rw [Bool.not_eq_true] at h1
    refine ⟨h1, ?_⟩
    simp only [h1, Bool.false_eq_true, if_false]
    cases h2 : parError walls (inForce s dflt) par with
    | some err => exact Or.inl ⟨err, rfl, rfl⟩
    | none =>
      right
      refine ⟨rfl, ?_⟩
      cases h3 : tableError (walls.map fun w => tableRow par (inForce s dflt) w.1) with
      | some err => exact ⟨⟨rfl, rfl, rfl, rfl, rfl, rfl, rfl⟩, Or.inl ⟨err, rfl, rfl⟩⟩
      | none =>
        simp only
        by_cases h4 : (verbose && !connected D (found sq D maxFloat tol walls s) ((found sq D maxFloat tol walls s).map (mark sq D maxFloat tol s.flux walls).row) walls.length) = true
        · unfold found at h4
          simp only [h4, if_true, found]
          refine ⟨⟨?_, ?_, ?_, ?_, ?_, ?_, ?_⟩, Or.inr ⟨?_, ?_, ?_⟩⟩ <;> trivial
        · rw [Bool.not_eq_true] at h4
          unfold found at h4
          simp only [h4, Bool.false_eq_true, if_false, found]
          refine ⟨⟨?_, ?_, ?_, ?_, ?_, ?_, ?_⟩, Or.inr ⟨?_, ?_, ?_⟩⟩ <;> trivial

/-- What a successful call leaves behind. -/
theorem success (h : create sq D maxFloat tol verbose walls par dflt s = (s', none)) :
    (let m := mark sq D maxFloat tol s.flux walls
     let F := found sq D maxFloat tol walls s
     s'.flux = m.flux ∧ s'.elevation = F.map m.elev ∧ s'.rowIndex = F.map m.row ∧ s'.edges = F.map (fun e : ℕ => (e : ℤ)) ∧ s'.number = F.length ∧
      s'.counter = number 0 ((List.range (3 * D.n)).map m.flux) ∧ s'.names = walls.map Prod.fst) ∧
    D.discontinuous = true ∧ (dflt.any fun e => !has (inForce s dflt) e.1) = false ∧ parError walls (inForce s dflt) par = none ∧
    tableError (walls.map fun w => tableRow par (inForce s dflt) w.1) = none ∧ s'.table = (walls.map fun w => tableRow par (inForce s dflt) w.1) ∧
    (verbose = true → connected D (found sq D maxFloat tol walls s) ((found sq D maxFloat tol walls s).map (mark sq D maxFloat tol s.flux walls).row) walls.length = true) := by
  have hd : D.discontinuous = true := by
    by_contra hd
    rw [Bool.not_eq_true] at hd
    unfold create at h
    rw [if_pos hd] at h
    simp at h
  rcases create_eq (sq := sq) (D := D) (maxFloat := maxFloat) (tol := tol) (verbose := verbose) (walls := walls) (par := par) (dflt := dflt) (s := s) hd with
    ⟨-, h2⟩ | ⟨h1, ⟨err, -, h2⟩ | ⟨h2, h3, ⟨err, -, h4⟩ | ⟨h4, h5, h6⟩⟩⟩
  · rw [h] at h2; simp at h2
  · rw [h] at h2; simp at h2
  · simp only [h] at h4; simp at h4
  · simp only [h] at h3 h5 h6
    refine ⟨h3, hd, h1, h2, h4, h5, fun hv => ?_⟩
    by_contra hc
    rw [Bool.not_eq_true] at hc
    rw [hv, hc] at h6
    simp at h6

theorem walled_iff (hs : IsSqrt sq) (ht : 0 < tol) (flux : ℕ → ℕ) (e : ℕ) :
    (mark sq D maxFloat tol flux walls).flux e = 1 ↔ Walled D tol walls e ∨ flux e = 1 := by
  rcases mark_spec (sq := sq) (D := D) (maxFloat := maxFloat) hs ht flux walls e with ⟨h0, h1, -⟩ | ⟨i, j, a, b, h1, h2, -, h3, -⟩
  · rw [h1]
    constructor
    · exact Or.inr
    · rintro (h | h)
      · exact absurd h h0
      · exact h
  · exact ⟨fun _ => Or.inl ⟨i, j, a, b, h1, h2⟩, fun _ => h3⟩

/-- **C82.** On a new domain exactly the edges along a wall become river wall edges. -/
theorem C82_edges (hs : IsSqrt sq) (ht : 0 < tol) (h : create sq D maxFloat tol verbose walls par dflt (St.fresh D) = (s', none)) (e : ℕ) :
    s'.flux e = 1 ↔ Walled D tol walls e := by
  rw [(success h).1.1, walled_iff hs ht]
  simp [St.fresh, St.init]

/-- **C82.** An edge whose midpoint is less than `tol` from a segment not shorter than `tol` is along it; the midpoint of an edge along a segment is less
than √2 `tol` from it. -/
theorem C82_near (hs : IsSqrt sq) (ht : 0 < tol) (a b : Pt3 K) (p : K × K) :
    (tol * tol ≤ len2 a b → (∃ t, 0 ≤ t ∧ t ≤ 1 ∧ dist2 a b p t < tol * tol) → Strip tol a b p) ∧
    (Strip tol a b p → ∃ t, 0 ≤ t ∧ t ≤ 1 ∧ dist2 a b p t < 2 * (tol * tol)) := by
  have split : ∀ L c d t : K, 0 < L → L * L = len2 a b → L * (p.1 - a.1) = c * (b.1 - a.1) - d * (b.2.1 - a.2.1) →
      L * (p.2 - a.2.1) = c * (b.2.1 - a.2.1) + d * (b.1 - a.1) → dist2 a b p t = (c - t * L) ^ 2 + d ^ 2 := by
    intro L c d t l0 l1 e1 e2
    refine mul_left_cancel₀ (mul_pos l0 l0).ne' ?_
    have : L * L * dist2 a b p t = (L * (p.1 - a.1) - t * L * (b.1 - a.1)) ^ 2 + (L * (p.2 - a.2.1) - t * L * (b.2.1 - a.2.1)) ^ 2 := by
      unfold dist2
      ring
    rw [this, e1, e2, l1]
    unfold len2
    ring
  constructor
  · rintro hl ⟨t, t0, t1, hd⟩
    obtain ⟨h0, h1⟩ := segLen_sq hs a b
    have hL : tol ≤ segLen sq a b := by
      by_contra hlt
      rw [not_le] at hlt
      have := mul_self_lt_mul_self h0 hlt
      rw [h1] at this
      linarith
    have hpos := lt_of_lt_of_le ht hL
    -- coordinates along and across
    set L := segLen sq a b
    have key : ∃ c d, L * (p.1 - a.1) = c * (b.1 - a.1) - d * (b.2.1 - a.2.1) ∧ L * (p.2 - a.2.1) = c * (b.2.1 - a.2.1) + d * (b.1 - a.1) := by
      refine ⟨((p.1 - a.1) * (b.1 - a.1) + (p.2 - a.2.1) * (b.2.1 - a.2.1)) / L, ((b.1 - a.1) * (p.2 - a.2.1) - (b.2.1 - a.2.1) * (p.1 - a.1)) / L, ?_, ?_⟩
      · refine mul_left_cancel₀ hpos.ne' ?_
        rw [← mul_assoc, h1]
        unfold len2
        field_simp
        ring
      · refine mul_left_cancel₀ hpos.ne' ?_
        rw [← mul_assoc, h1]
        unfold len2
        field_simp
        ring
    obtain ⟨c, d, e1, e2⟩ := key
    rw [split L c d t hpos h1 e1 e2] at hd
    have k1 : |d| < tol := by
      rw [← abs_of_pos ht]
      exact sq_lt_sq.mp (by nlinarith [sq_nonneg (c - t * L)])
    have k2 : |c - t * L| < tol := by
      rw [← abs_of_pos ht]
      exact sq_lt_sq.mp (by nlinarith [sq_nonneg d])
    obtain ⟨k3, k4⟩ := abs_lt.mp k2
    have k5 := mul_nonneg t0 hpos.le
    have k6 := mul_le_mul_of_nonneg_right t1 hpos.le
    exact ⟨L, c, d, hpos, hL, h1, e1, e2, k1, by linarith, by linarith⟩
  · rintro ⟨L, c, d, l0, -, l2, e1, e2, k1, k2, k3⟩
    have hd : d ^ 2 < tol * tol := by
      rw [← pow_two]
      exact sq_lt_sq.mpr (by rwa [abs_of_pos ht])
    rcases lt_or_ge c 0 with hc | hc
    · refine ⟨0, le_rfl, zero_le_one, ?_⟩
      rw [split L c d 0 l0 l2 e1 e2]
      have : (c - 0 * L) ^ 2 < tol * tol := by
        rw [← pow_two]
        exact sq_lt_sq.mpr (by rw [abs_of_pos ht, abs_lt]; constructor <;> linarith)
      linarith
    · rcases le_or_gt c L with hcL | hcL
      · refine ⟨c / L, div_nonneg hc l0.le, (div_le_one l0).mpr hcL, ?_⟩
        rw [split L c d _ l0 l2 e1 e2, div_mul_cancel₀ _ l0.ne']
        nlinarith
      · refine ⟨1, zero_le_one, le_rfl, ?_⟩
        rw [split L c d 1 l0 l2 e1 e2]
        have : (c - 1 * L) ^ 2 < tol * tol := by
          rw [← pow_two]
          exact sq_lt_sq.mpr (by rw [abs_of_pos ht, abs_lt]; constructor <;> linarith)
        linarith

theorem lookup (flux : ℕ → ℕ) {n e : ℕ} (he : e < n) {α : Type*} (g : ℕ → α) :
    (flux e = 1 → ∃ c, (number 0 ((List.range n).map flux))[e]? = some (c + 1) ∧
      (((List.range n).filter fun e => decide (flux e = 1)).map g)[c]? = some (g e) ∧ c = (List.range e).countP fun e => decide (flux e = 1)) ∧
    (flux e ≠ 1 → (number 0 ((List.range n).map flux))[e]? = some 0) := by
  have hlen : e < ((List.range n).map flux).length := by simpa using he
  have h1 := number_get ((List.range n).map flux) 0 e hlen
  have h2 : ((List.range n).map flux)[e] = flux e := by simp
  rw [h2] at h1
  constructor
  · intro hf
    have h3 : (((List.range n).map flux).take e).countP (fun f => decide (f = 1)) = (List.range e).countP fun e => decide (flux e = 1) := by
      rw [← List.map_take, List.take_range, Nat.min_eq_left he.le, List.countP_map]
      rfl
    rw [if_pos hf, h3, zero_add] at h1
    refine ⟨_, h1, ?_, rfl⟩
    rw [List.getElem?_map, filter_get _ he (by simpa using hf)]
    rfl
  · intro hf
    rw [if_neg hf] at h1
    exact h1

/-- **C82.** The counter leads the flux computation from a river wall edge to its own entries: entry `counter - 1` of the list of edges is that edge; other
edges have counter zero; the number of edges is the number of entries. -/
theorem C82_counter (h : create sq D maxFloat tol verbose walls par dflt s = (s', none)) {e : ℕ} (he : e < 3 * D.n) :
    (s'.flux e = 1 → ∃ c, s'.counter[e]? = some (c + 1) ∧ s'.edges[c]? = some (e : ℤ) ∧ c < s'.number) ∧ (s'.flux e ≠ 1 → s'.counter[e]? = some 0) ∧
    s'.elevation.length = s'.number ∧ s'.rowIndex.length = s'.number ∧ s'.edges.length = s'.number := by
  obtain ⟨h1, h2, h3, h4, h5, h6, -⟩ := (success h).1
  rw [h1, h2, h3, h4, h5, h6]
  obtain ⟨k1, k2⟩ := lookup (mark sq D maxFloat tol s.flux walls).flux he (fun e : ℕ => (e : ℤ))
  refine ⟨fun hf => ?_, k2, by simp, by simp, by simp⟩
  obtain ⟨c, c1, c2, -⟩ := k1 hf
  refine ⟨c, c1, c2, ?_⟩
  have := (List.getElem?_eq_some_iff.mp c2).1
  simpa [found] using this

/-- **C82.** An edge along a wall: the elevation used for it is that of the wall at the place nearest to its midpoint, and its parameters are those of that
wall; if several segments run along it the last one counts. -/
theorem C82_crest (hs : IsSqrt sq) (ht : 0 < tol) (h : create sq D maxFloat tol verbose walls par dflt s = (s', none)) {e : ℕ} (he : e < 3 * D.n)
    (hw : Walled D tol walls e) :
    ∃ c i j a b z, s'.counter[e]? = some (c + 1) ∧ Segment walls i j a b ∧ Strip tol a b (D.place e) ∧
      (∀ i' j' a' b', Later i j i' j' → Segment walls i' j' a' b' → ¬ Strip tol a' b' (D.place e)) ∧
      s'.elevation[c]? = some z ∧ Crest a b (D.place e) z ∧ s'.rowIndex[c]? = some (i : ℤ) := by
  obtain ⟨h1, h2, h3, h4, h5, h6, -⟩ := (success h).1
  rw [h2, h3, h6]
  rcases mark_spec (sq := sq) (D := D) (maxFloat := maxFloat) hs ht s.flux walls e with ⟨h0, -⟩ | ⟨i, j, a, b, k1, k2, k3, k4, k5, k6⟩
  · exact absurd hw h0
  · obtain ⟨c, c1, c2, e1⟩ := (lookup (mark sq D maxFloat tol s.flux walls).flux he (mark sq D maxFloat tol s.flux walls).elev).1 k4
    obtain ⟨c', c3, c4, e2⟩ := (lookup (mark sq D maxFloat tol s.flux walls).flux he (mark sq D maxFloat tol s.flux walls).row).1 k4
    rw [← e1] at e2
    subst e2
    rw [k6] at c4
    exact ⟨c', i, j, a, b, _, c1, k1, k2, k3, c2, k5, c4⟩

/-- **C82.** On a segment itself the elevation is the linear one. -/
theorem C82_linear {a b : Pt3 K} {p : K × K} {z t : K} (hab : 0 < len2 a b) (h : Crest a b p z) (t0 : 0 ≤ t) (t1 : t ≤ 1)
    (hp : p = (a.1 + t * (b.1 - a.1), a.2.1 + t * (b.2.1 - a.2.1))) : z = a.2.2 + t * (b.2.2 - a.2.2) := by
  obtain ⟨r, r0, r1, hr, rfl⟩ := h
  have h1 := hr t t0 t1
  have h2 : dist2 a b p t = 0 := by
    unfold dist2
    rw [hp]
    ring
  have h3 : dist2 a b p r = (r - t) ^ 2 * len2 a b := by
    unfold dist2 len2
    rw [hp]
    ring
  rw [h2, h3] at h1
  have h4 : (r - t) ^ 2 = 0 := by
    by_contra hne
    have : 0 < (r - t) ^ 2 := lt_of_le_of_ne (sq_nonneg _) (Ne.symm hne)
    nlinarith [mul_pos this hab]
  have h5 : r = t := by
    have := pow_eq_zero_iff (two_ne_zero) |>.mp h4
    linarith
  rw [h5]

/-- **C82.** The elevation lies between those of the two corners. -/
theorem C82_between {a b : Pt3 K} {p : K × K} {z : K} (h : Crest a b p z) : min a.2.2 b.2.2 ≤ z ∧ z ≤ max a.2.2 b.2.2 := by
  obtain ⟨t, t0, t1, -, rfl⟩ := h
  rcases le_total a.2.2 b.2.2 with hab | hab
  · rw [min_eq_left hab, max_eq_right hab]
    have h1 := mul_nonneg t0 (sub_nonneg.mpr hab)
    have h2 := mul_le_mul_of_nonneg_right t1 (sub_nonneg.mpr hab)
    constructor <;> linarith
  · rw [min_eq_right hab, max_eq_left hab]
    have h1 := mul_nonneg t0 (sub_nonneg.mpr hab)
    have h2 := mul_le_mul_of_nonneg_right t1 (sub_nonneg.mpr hab)
    constructor <;> linarith

/-- **C82.** The two sides of an edge agree. -/
theorem C82_both_sides (h : create sq D maxFloat tol verbose walls par dflt (St.fresh D) = (s', none)) {e f : ℕ} (he : e < 3 * D.n) (hf : f < 3 * D.n)
    (hm : D.mid e = D.mid f) :
    s'.flux e = s'.flux f ∧ (s'.flux e = 1 → ∃ c c', s'.counter[e]? = some (c + 1) ∧ s'.counter[f]? = some (c' + 1) ∧
      s'.elevation[c]? = s'.elevation[c']? ∧ s'.rowIndex[c]? = s'.rowIndex[c']?) := by
  obtain ⟨h1, h2, h3, h4, h5, h6, -⟩ := (success h).1
  rw [h1, h2, h3, h6]
  have same : ∀ (l : List (ℕ × Pt3 K × Pt3 K)) (m : Marks K), m.flux e = m.flux f → m.elev e = m.elev f → m.row e = m.row f →
      (l.foldl (markSeg sq D tol) m).flux e = (l.foldl (markSeg sq D tol) m).flux f ∧ (l.foldl (markSeg sq D tol) m).elev e = (l.foldl (markSeg sq D tol) m).elev f ∧
      (l.foldl (markSeg sq D tol) m).row e = (l.foldl (markSeg sq D tol) m).row f := by
    intro l
    induction l with
    | nil => intro m a b c; exact ⟨a, b, c⟩
    | cons x l ih =>
      intro m a b c
      rw [List.foldl_cons]
      refine ih _ ?_ ?_ ?_ <;>
      · obtain ⟨i, u, v⟩ := x
        unfold markSeg
        simp only
        split_ifs <;> simp_all
  obtain ⟨k1, k2, k3⟩ := same (segsFrom 0 walls) ⟨(St.fresh D).flux, fun _ => 0 - maxFloat, fun _ => -1⟩ rfl rfl rfl
  refine ⟨k1, fun hfl => ?_⟩
  have hfl' := k1.symm.trans hfl
  obtain ⟨c, c1, c2, e1⟩ := (lookup (mark sq D maxFloat tol (St.fresh D).flux walls).flux he (mark sq D maxFloat tol (St.fresh D).flux walls).elev).1 hfl
  obtain ⟨d, d1, d2, e2⟩ := (lookup (mark sq D maxFloat tol (St.fresh D).flux walls).flux he (mark sq D maxFloat tol (St.fresh D).flux walls).row).1 hfl
  obtain ⟨c', c1', c2', e1'⟩ := (lookup (mark sq D maxFloat tol (St.fresh D).flux walls).flux hf (mark sq D maxFloat tol (St.fresh D).flux walls).elev).1 hfl'
  obtain ⟨d', d1', d2', e2'⟩ := (lookup (mark sq D maxFloat tol (St.fresh D).flux walls).flux hf (mark sq D maxFloat tol (St.fresh D).flux walls).row).1 hfl'
  rw [← e1] at e2
  rw [← e1'] at e2'
  subst e2 e2'
  refine ⟨d, d', c1, c1', ?_, ?_⟩
  · exact c2.trans ((congrArg some k2).trans c2'.symm)
  · exact d2.trans ((congrArg some k3).trans d2'.symm)

end Verif.Wall
