import Verif.FileFn.Spec

/-! # Lemmas on functions read from files -/

namespace Verif.FileFn

set_option linter.unusedSectionVars false

open Verif.Polygon (Pt shift InTri OnSeg Flat Side IsSqrt isInsidePolygon)
open Verif.Interp (PlaneThrough LineThrough StrictlyIncreasing Mesh Obj thin monotone goUp goDown valueAt Fits thin_get goUp_spec goDown_spec)
open Verif.Quad (Tri Covers Almost)

variable {K : Type*} [Field K] [LinearOrder K] [IsStrictOrderedRing K]

/-! ## Calls -/

theorem call_keeps {f g : Fn K} {t : K} {p : Option ℕ} {q : List (Cell K)} (h : f.call t p = .ok (g, q)) :
    ∃ i, g = { f with index := i } ∧ i < f.time.length := by
  unfold Fn.call at h
  have key : f.answer t p = .ok (g, q) → ∃ i, g = { f with index := i } ∧ i < f.time.length := by
    intro h
    unfold Fn.answer at h
    cases h0 : f.time.head? with
    | none => rw [h0] at h; simp at h
    | some t0 =>
      cases h1 : f.time.getLast? with
      | none => rw [h0, h1] at h; simp at h
      | some t1 =>
        rw [h0, h1] at h
        simp only at h
        by_cases c1 : t < t0
        · rw [if_pos c1] at h; simp at h
        by_cases c2 : t > t1
        · rw [if_neg c1, if_pos c2] at h; simp at h
        rw [if_neg c1, if_neg c2] at h
        cases h2 : goUp t f.time (f.time.length + 1) f.index with
        | none => rw [h2] at h; simp at h
        | some i =>
          rw [h2] at h
          simp only at h
          cases h3 : goDown t f.time i with
          | none => rw [h3] at h; simp at h
          | some j =>
            rw [h3] at h
            simp only at h
            cases h4 : f.time[j]? with
            | none => rw [h4] at h; simp at h
            | some ti =>
              have hj : j < f.time.length := (List.getElem?_eq_some_iff.1 h4).1
              cases h5 : f.pre.at p j with
              | none => rw [h4, h5] at h; simp at h
              | some q0 =>
                rw [h4, h5] at h
                simp only at h
                by_cases c3 : t = ti
                · rw [if_pos c3] at h
                  obtain ⟨rfl, -⟩ := Prod.mk.inj (Except.ok.inj h)
                  exact ⟨j, rfl, hj⟩
                · rw [if_neg c3] at h
                  cases h6 : f.time[j + 1]? with
                  | none => rw [h6] at h; simp at h
                  | some tj =>
                    cases h7 : f.pre.at p (j + 1) with
                    | none => rw [h6, h7] at h; simp at h
                    | some q1 =>
                      rw [h6, h7] at h
                      simp only at h
                      split_ifs at h
                      · obtain ⟨rfl, -⟩ := Prod.mk.inj (Except.ok.inj h)
                        exact ⟨j, rfl, hj⟩
                      · obtain ⟨rfl, -⟩ := Prod.mk.inj (Except.ok.inj h)
                        exact ⟨j, rfl, hj⟩
  cases hpre : f.pre with
  | points tab =>
    cases p with
    | none => rw [hpre] at h; simp at h
    | some p => rw [hpre] at h; rw [← hpre]; exact key h
  | raw s vals =>
    cases s with
    | true => rw [hpre] at h; simp at h
    | false => rw [hpre] at h; rw [← hpre]; exact key h

theorem after_keeps (hs : List (K × Option ℕ)) : ∀ f : Fn K, f.index < f.time.length →
    ∃ i, f.after hs = { f with index := i } ∧ i < f.time.length := by
  induction hs with
  | nil => intro f h; exact ⟨f.index, rfl, h⟩
  | cons a hs ih =>
    intro f h
    unfold Fn.after
    cases hc : f.call a.1 a.2 with
    | error e => exact ih f h
    | ok r =>
      obtain ⟨g, q⟩ := r
      obtain ⟨i, rfl, hi⟩ := call_keeps hc
      obtain ⟨j, e, hj⟩ := ih { f with index := i } hi
      exact ⟨j, e, hj⟩

/-- A function that answers for the point. -/
def Fn.answers (f : Fn K) (p : Option ℕ) : Prop :=
  match f.pre, p with
  | .raw true _, _ => False
  | .points _, none => False
  | _, _ => True

/-- The slot that a call uses. -/
theorem call_slot (f : Fn K) (hi : f.index < f.time.length) (p : Option ℕ) (hp : f.answers p) (first last : K)
    (hf : f.time.head? = some first) (hl : f.time.getLast? = some last) (t : K) :
    (t < first → f.call t p = .error .early) ∧ (first ≤ t → last < t → f.call t p = .error .late) ∧
      (first ≤ t → t ≤ last → ∃ j, j < f.time.length ∧
        ((f.time[j]? = some t ∧ ∀ q0, f.pre.at p j = some q0 → f.call t p = .ok ({ f with index := j }, q0)) ∨
          ∃ a b, f.time[j]? = some a ∧ f.time[j + 1]? = some b ∧ a < t ∧ t < b ∧ ∀ q0 q1, f.pre.at p j = some q0 → f.pre.at p (j + 1) = some q1 →
            f.call t p = .ok ({ f with index := j }, List.zipWith (mix ((t - a) / (b - a))) q0 q1))) := by
  have e : f.call t p = f.answer t p := by
    unfold Fn.answers at hp
    unfold Fn.call
    cases hpre : f.pre with
    | points tab =>
      rw [hpre] at hp
      cases p with
      | none => exact absurd hp (by simp)
      | some p => rfl
    | raw s vals =>
      rw [hpre] at hp
      cases s with
      | true => exact absurd hp (by simp)
      | false => rfl
  rw [e]
  unfold Fn.answer
  rw [hf, hl]
  refine ⟨fun h => by simp only; rw [if_pos h], fun h1 h2 => by simp only; rw [if_neg (not_lt.2 h1), if_pos h2], fun h1 h2 => ?_⟩
  obtain ⟨k, y, u1, u2, u3⟩ := goUp_spec t f.time last hl h2 f.time.length f.index hi (by omega)
  obtain ⟨j, a, d1, d2, d3, d4, d5⟩ := goDown_spec t f.time first hf h1 k y u2
  have hjl : j < f.time.length := (List.getElem?_eq_some_iff.1 d3).1
  refine ⟨j, hjl, ?_⟩
  simp only
  rw [if_neg (not_lt.2 h1), if_neg (not_lt.2 h2), u1]
  simp only [d1, d3]
  by_cases he : t = a
  · left
    refine ⟨by rw [he], fun q0 h0 => ?_⟩
    rw [h0]
    simp only
    rw [if_pos he]
  · right
    have hlt : a < t := lt_of_le_of_ne d4 fun h => he h.symm
    have hnext : ∃ y', f.time[j + 1]? = some y' ∧ t < y' := by
      rcases d5 with rfl | h
      · rw [d3] at u2
        obtain rfl := Option.some.inj u2
        exact absurd hlt (not_lt.2 u3)
      · exact h
    obtain ⟨b, n1, n2⟩ := hnext
    refine ⟨a, b, rfl, n1, hlt, n2, fun q0 q1 h0 h1' => ?_⟩
    have hpos : 0 < (t - a) / (b - a) := div_pos (by linarith) (by linarith)
    rw [h0, n1, h1']
    simp only
    rw [if_neg he, if_pos hpos]

/-! ## The table -/

/-- The row used at time number `i`. -/
def Var.rowD (i : ℕ) : Var K → List K
  | .one v => v
  | .two v => v.getD i []

theorem rowD_value (i j : ℕ) (v : Var K) : (v.rowD i).getD j 0 = v.value i j := by cases v <;> rfl

theorem rowD_length {nodes times : ℕ} {v : Var K} (h : Shaped nodes times v) {i : ℕ} (hi : i < times) : (v.rowD i).length = nodes := by
  cases v with
  | one v => exact h
  | two v =>
    obtain ⟨h1, h2⟩ := h
    have : v.getD i [] = v[i] := by rw [List.getD_eq_getElem?_getD, List.getElem?_eq_getElem (by omega)]; rfl
    show (v.getD i []).length = nodes
    rw [this]
    exact h2 _ (List.getElem_mem _)

theorem thin_row {nodes times n : ℕ} (hn : 0 < n) {v : Var K} (h : Shaped nodes times v) {i : ℕ} (hi : i * n < times) :
    (v.thin n).row i = some (v.rowD (i * n)) := by
  cases v with
  | one v => rfl
  | two v =>
    have hlt : i < (v.length + n - 1) / n := by
      rw [h.1, Nat.lt_div_iff_mul_lt hn]
      omega
    show (Var.thin.thinRows n v)[i]? = some (v.getD (i * n) [])
    unfold Var.thin.thinRows
    rw [List.getElem?_map, List.getElem?_range hlt]
    rfl

theorem atTime_spec {m : Mesh K} {pos : ℕ → Pt K} {ts : List (Tri K)} (hm : Fits m pos ts) (sq : K → K) (pts : List (Pt K)) (L : ℕ) (c : Bool)
    (i n times : ℕ) (hn : 0 < n) (hi : i * n < times) (vals : List (Var K)) : (∀ v ∈ vals, Shaped m.nodes times v) → ∀ o : Obj K, o.mesh = m →
    ∃ o', o'.mesh = m ∧ atTime sq pts L c i o (vals.map (Var.thin n)) =
      .ok (o', vals.map fun v => pts.map fun P => cell (valueAt sq m c (v.rowD (i * n)) P)) := by
  induction vals with
  | nil => intro _ o ho; exact ⟨o, ho, rfl⟩
  | cons v vs ih =>
    intro hsh o ho
    have hv := hsh v (by simp)
    obtain ⟨f1, f2, -⟩ := Verif.Interp.fresh_spec hm sq o ho (v.rowD (i * n)) pts L c
    rw [if_pos (rowD_length hv hi)] at f1
    have hint : o.interpolate sq (v.rowD (i * n)) (some pts) L c = o.fresh sq (v.rowD (i * n)) pts L c := rfl
    obtain ⟨o', h1, h2⟩ := ih (fun w hw => hsh w (by simp [hw])) (o.fresh sq (v.rowD (i * n)) pts L c).1 f2
    refine ⟨o', h1, ?_⟩
    rw [List.map_cons]
    unfold atTime
    rw [thin_row hn hv hi]
    simp only
    rw [hint]
    generalize hr : o.fresh sq (v.rowD (i * n)) pts L c = r at f1 h2
    obtain ⟨o1, z⟩ := r
    simp only at f1
    subst f1
    simp only
    rw [h2]
    simp

theorem overTimes_spec {m : Mesh K} {pos : ℕ → Pt K} {ts : List (Tri K)} (hm : Fits m pos ts) (sq : K → K) (pts : List (Pt K)) (L : ℕ) (c : Bool)
    (n times : ℕ) (hn : 0 < n) (vals : List (Var K)) (hsh : ∀ v ∈ vals, Shaped m.nodes times v) (is : List ℕ) : (∀ i ∈ is, i * n < times) →
    ∀ o : Obj K, o.mesh = m → overTimes sq pts L c (vals.map (Var.thin n)) o is =
      .ok (is.map fun i => vals.map fun v => pts.map fun P => cell (valueAt sq m c (v.rowD (i * n)) P)) := by
  induction is with
  | nil => intro _ o ho; rfl
  | cons i is ih =>
    intro hi o ho
    obtain ⟨o', h1, h2⟩ := atTime_spec hm sq pts L c i n times hn (hi i (by simp)) vals hsh o ho
    unfold overTimes
    rw [h2]
    simp only
    rw [ih (fun j hj => hi j (by simp [hj])) o' h1]
    rfl

theorem mapM_getElem (r : List (List (Cell K))) (p : ℕ) (g : List (Cell K) → Cell K) (h : ∀ q ∈ r, q[p]? = some (g q)) :
    r.mapM (fun q => q[p]?) = some (r.map g) := by
  induction r with
  | nil => rfl
  | cons a r ih =>
    rw [List.mapM_cons, h a (by simp), ih fun q hq => h q (by simp [hq])]
    rfl

/-- The values of all quantities at one point and time number. -/
theorem pre_at (vals : List (Var K)) (pts : List (Pt K)) (g : ℕ → Var K → Pt K → Cell K) (N i p : ℕ) (P : Pt K) (hi : i < N) (hP : pts[p]? = some P) :
    (Pre.points ((List.range N).map fun i => vals.map fun v => pts.map fun P => g i v P)).at (some p) i = some (vals.map fun v => g i v P) := by
  unfold Pre.at
  simp only
  rw [List.getElem?_map, List.getElem?_range hi]
  simp only [Option.map_some]
  rw [List.mapM_map]
  induction vals with
  | nil => rfl
  | cons v vs ih =>
    rw [List.mapM_cons]
    simp only [Function.comp_apply] at ih ⊢
    rw [ih, List.getElem?_map, hP]
    rfl

/-! ## Times -/

theorem upTo_get (limit : K) : ∀ T : List K, StrictlyIncreasing T → ∀ (i : ℕ) (t : K), (upTo limit T)[i]? = some t ↔ T[i]? = some t ∧ t ≤ limit := by
  intro T
  induction T with
  | nil => intro _ i t; simp [upTo]
  | cons a T ih =>
    intro hT i t
    have hT' : StrictlyIncreasing T := fun j k x y hjk hx hy => hT (j + 1) (k + 1) x y (by omega) hx hy
    unfold upTo
    by_cases h : a > limit
    · rw [if_pos h]
      constructor
      · intro h'; simp at h'
      · rintro ⟨h1, h2⟩
        exfalso
        rcases Nat.eq_zero_or_pos i with rfl | hi
        · simp at h1; subst h1; exact absurd h2 (not_le.2 h)
        · have := hT 0 i a t hi rfl h1
          exact absurd (lt_trans h this) (not_lt.2 h2)
    · rw [if_neg h]
      cases i with
      | zero =>
        constructor
        · intro h'
          simp only [List.getElem?_cons_zero, Option.some.injEq] at h' ⊢
          subst h'
          exact ⟨rfl, not_lt.1 h⟩
        · rintro ⟨h1, -⟩
          simpa using h1
      | succ i =>
        rw [List.getElem?_cons_succ, List.getElem?_cons_succ]
        exact ih hT' i t

/-! ## Moving the origin -/

theorem plane_shift {a b c p d : Pt K} {fa fb fc v : K} (h : PlaneThrough a b c fa fb fc (relTo d p) v) :
    PlaneThrough (shift d a) (shift d b) (shift d c) fa fb fc p v := by
  obtain ⟨al, be, ga, h1, h2, h3, h4⟩ := h
  simp only [relTo] at h4
  refine ⟨al - be * d.x - ga * d.y, be, ga, ?_, ?_, ?_, ?_⟩
  · simp only [shift]; rw [← h1]; ring
  · simp only [shift]; rw [← h2]; ring
  · simp only [shift]; rw [← h3]; ring
  · rw [h4]; ring

theorem inTri_shift {a b c p d : Pt K} : InTri (relTo d p) a b c ↔ InTri p (shift d a) (shift d b) (shift d c) := by
  unfold InTri Flat
  simp only [shift, relTo, add_sub_add_right_eq_sub]
  refine and_congr Iff.rfl ?_
  constructor
  · rintro ⟨u, v, w, h1, h2, h3, h4, h5, h6⟩
    refine ⟨u, v, w, h1, h2, h3, h4, ?_, ?_⟩
    · linear_combination h5 - d.x * h4
    · linear_combination h6 - d.y * h4
  · rintro ⟨u, v, w, h1, h2, h3, h4, h5, h6⟩
    refine ⟨u, v, w, h1, h2, h3, h4, ?_, ?_⟩
    · linear_combination h5 + d.x * h4
    · linear_combination h6 + d.y * h4

theorem onSeg_shift {a b p d : Pt K} : OnSeg (relTo d p) a b ↔ OnSeg p (shift d a) (shift d b) := by
  unfold OnSeg
  simp only [shift, relTo, add_sub_add_right_eq_sub]
  refine exists_congr fun t => and_congr Iff.rfl (and_congr Iff.rfl (and_congr ?_ ?_))
  · constructor <;> intro h <;> linear_combination h
  · constructor <;> intro h <;> linear_combination h

/-- A triangle moved. -/
def moved (d : Pt K) (t : Tri K) : Tri K := ⟨t.index, shift d t.a, shift d t.b, shift d t.c⟩

theorem covers_shift {t : Tri K} {p d : Pt K} : Covers t (relTo d p) ↔ Covers (moved d t) p := by
  unfold Covers
  rw [inTri_shift, onSeg_shift, onSeg_shift, onSeg_shift]
  rfl

theorem almost_shift {t : Tri K} {p d : Pt K} (h : Almost t (relTo d p)) : Almost (moved d t) p := by
  rcases h with h | ⟨a, b, ⟨i, hi, ha, hb⟩, q, hq, hd⟩
  · exact Or.inl (inTri_shift.1 h)
  · right
    have hi3 : i < 3 := hi
    refine ⟨shift d a, shift d b, ⟨i, hi, ?_, ?_⟩, shift d q, ?_, ?_⟩
    · subst ha
      match i, hi3 with
      | 0, _ => rfl
      | 1, _ => rfl
      | 2, _ => rfl
    · subst hb
      match i, hi3 with
      | 0, _ => rfl
      | 1, _ => rfl
      | 2, _ => simp [moved]
    · have e : q = relTo d (shift d q) := by simp [relTo, shift]
      rw [e] at hq
      exact onSeg_shift.1 hq
    · simp only [shift, relTo, add_sub_add_right_eq_sub] at hd ⊢
      have e1 : p.x - (q.x + d.x) = p.x - d.x - q.x := by ring
      have e2 : p.y - (q.y + d.y) = p.y - d.y - q.y := by ring
      rw [e1, e2]
      exact hd

end Verif.FileFn
