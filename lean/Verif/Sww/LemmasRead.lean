import Verif.Sww.SpecRead

/-! Lemmas about appended sheets, weeded points and positions in time. -/

set_option linter.unusedSectionVars false

namespace Verif.Sww

variable {K : Type*} [Field K] [LinearOrder K] [IsStrictOrderedRing K]

/-- One step of `appendSheets` (`sww_merge.py` 116-145). -/
def joined (acc s : Sheet K) : Sheet K :=
  { acc with
    volumes := acc.volumes ++ s.volumes.map (fun v k => v k + acc.x.length)
    x := acc.x ++ s.x
    y := acc.y ++ s.y
    elevation := acc.elevation ++ s.elevation
    dyn := fun q => List.zipWith (· ++ ·) (acc.dyn q) (s.dyn q) }

theorem joined_fits {acc s : Sheet K} (ha : acc.Fits) (hs : s.Fits) (h : s.times.length = acc.times.length) : (joined acc s).Fits where
  y := by simp [joined, ha.y, hs.y]
  elevation := by simp [joined, ha.elevation, hs.elevation]
  slices q := by simp [joined, ha.slices q, hs.slices q, h]
  rows q row hrow := by
    simp only [joined] at hrow ⊢
    obtain ⟨i, hi, rfl⟩ := List.getElem_of_mem hrow
    simp only [List.getElem_zipWith, List.length_append]
    rw [ha.rows q _ (List.getElem_mem _), hs.rows q _ (List.getElem_mem _)]
  volumes v hv k := by
    simp only [joined, List.mem_append, List.mem_map, List.length_append] at hv ⊢
    rcases hv with hv | ⟨w, hw, rfl⟩
    · have := ha.volumes v hv k
      omega
    · have := hs.volumes w hw k
      simp only
      omega

theorem joined_old {acc s : Sheet K} (ha : acc.Fits) (hs : s.Fits) (h : s.times.length = acc.times.length) {p : ℕ} (hp : p < acc.x.length) :
    (joined acc s).corner p = acc.corner p := by
  have h2 : p < acc.y.length := by rw [ha.y]; exact hp
  have h3 : p < acc.elevation.length := by rw [ha.elevation]; exact hp
  simp only [Sheet.corner, joined, List.getElem?_append_left hp, List.getElem?_append_left h2, List.getElem?_append_left h3]
  congr 1
  funext q i
  rw [List.getElem?_zipWith]
  by_cases hi : i < (acc.dyn q).length
  · have hi' : i < (s.dyn q).length := by rw [hs.slices, h, ← ha.slices q]; exact hi
    rw [List.getElem?_eq_getElem hi, List.getElem?_eq_getElem hi']
    simp only [Option.bind_some]
    rw [List.getElem?_append_left]
    rw [ha.rows q _ (List.getElem_mem _)]
    exact hp
  · rw [List.getElem?_eq_none (Nat.not_lt.mp hi)]

theorem joined_new {acc s : Sheet K} (ha : acc.Fits) (hs : s.Fits) (h : s.times.length = acc.times.length) (p : ℕ) :
    (joined acc s).corner (p + acc.x.length) = s.corner p := by
  have e1 : (acc.x ++ s.x)[p + acc.x.length]? = s.x[p]? := by
    rw [List.getElem?_append_right (by omega)]; congr 1; omega
  have e2 : (acc.y ++ s.y)[p + acc.x.length]? = s.y[p]? := by
    rw [List.getElem?_append_right (by rw [ha.y]; omega)]; congr 1; rw [ha.y]; omega
  have e3 : (acc.elevation ++ s.elevation)[p + acc.x.length]? = s.elevation[p]? := by
    rw [List.getElem?_append_right (by rw [ha.elevation]; omega)]; congr 1; rw [ha.elevation]; omega
  simp only [Sheet.corner, joined, e1, e2, e3]
  congr 1
  funext q i
  rw [List.getElem?_zipWith]
  by_cases hi : i < (s.dyn q).length
  · have hi' : i < (acc.dyn q).length := by rw [ha.slices, ← h, ← hs.slices q]; exact hi
    rw [List.getElem?_eq_getElem hi, List.getElem?_eq_getElem hi']
    simp only [Option.bind_some]
    have hl := ha.rows q _ (List.getElem_mem hi')
    rw [List.getElem?_append_right (by rw [hl]; omega), hl]
    congr 1
    omega
  · rw [List.getElem?_eq_none (Nat.not_lt.mp hi)]
    rcases (acc.dyn q)[i]? with _ | a <;> rfl

theorem joined_triangles {acc s : Sheet K} (ha : acc.Fits) (hs : s.Fits) (h : s.times.length = acc.times.length) :
    (joined acc s).triangles = acc.triangles ++ s.triangles := by
  have hv : (joined acc s).volumes = acc.volumes ++ s.volumes.map (fun v k => v k + acc.x.length) := rfl
  simp only [Sheet.triangles, hv, List.map_append, List.map_map]
  congr 1
  · apply List.map_congr_left
    intro v hv'
    funext k
    exact joined_old ha hs h (ha.volumes v hv' k)
  · apply List.map_congr_left
    intro v _
    funext k
    exact joined_new ha hs h (v k)

theorem appendSheets_cons {acc s : Sheet K} {rest : List (Sheet K)} :
    appendSheets acc (s :: rest) = if ∀ q, (s.dyn q).length = (acc.dyn q).length then appendSheets (joined acc s) rest else none := rfl

theorem same_slices {acc s : Sheet K} (ha : acc.Fits) (hs : s.Fits) :
    (∀ q, (s.dyn q).length = (acc.dyn q).length) ↔ s.times.length = acc.times.length := by
  constructor
  · intro h
    rw [← hs.slices 0, ← ha.slices 0]
    exact h 0
  · intro h q
    rw [hs.slices, ha.slices, h]

theorem append_isSome {rest : List (Sheet K)} : ∀ {acc : Sheet K}, acc.Fits → (∀ s ∈ rest, s.Fits) →
    ((∃ r, appendSheets acc rest = some r) ↔ ∀ s ∈ rest, s.times.length = acc.times.length) := by
  induction rest with
  | nil => intro acc _ _; simp [appendSheets]
  | cons s rest ih =>
    intro acc ha h
    have hs := h s List.mem_cons_self
    rw [appendSheets_cons]
    by_cases hc : s.times.length = acc.times.length
    · rw [if_pos ((same_slices ha hs).2 hc), ih (joined_fits ha hs hc) (fun t ht => h t (List.mem_cons_of_mem _ ht))]
      simp [joined, hc]
    · rw [if_neg (fun h' => hc ((same_slices ha hs).1 h'))]
      simp [hc]

theorem append_spec {rest : List (Sheet K)} : ∀ {acc r : Sheet K}, acc.Fits → (∀ s ∈ rest, s.Fits) → appendSheets acc rest = some r →
    r.Fits ∧ r.triangles = acc.triangles ++ rest.flatMap Sheet.triangles ∧ r.times = acc.times ∧ r.xll = acc.xll ∧ r.yll = acc.yll ∧
      r.x.length = acc.x.length + (rest.map fun s => s.x.length).sum := by
  induction rest with
  | nil =>
    intro acc r ha _ h
    simp only [appendSheets, Option.some.injEq] at h
    subst h
    simp [ha]
  | cons s rest ih =>
    intro acc r ha h hr
    have hs := h s List.mem_cons_self
    rw [appendSheets_cons] at hr
    split at hr
    next hc =>
      have hc' := (same_slices ha hs).1 hc
      obtain ⟨r1, r2, r3, r4, r5, r6⟩ := ih (joined_fits ha hs hc') (fun t ht => h t (List.mem_cons_of_mem _ ht)) hr
      refine ⟨r1, ?_, r3, r4, r5, ?_⟩
      · rw [r2, joined_triangles ha hs hc', List.flatMap_cons, List.append_assoc]
      · rw [r6]
        simp [joined, Nat.add_assoc]
    next => simp at hr

/-! ### weed -/

section weed
variable {α : Type*} [DecidableEq α]

theorem firsts_aux (l : List α) : ∀ acc : List α, acc.Nodup →
    (l.foldl (fun acc a => if a ∈ acc then acc else acc ++ [a]) acc).Nodup ∧
      ∀ a, a ∈ l.foldl (fun acc a => if a ∈ acc then acc else acc ++ [a]) acc ↔ a ∈ acc ∨ a ∈ l := by
  induction l with
  | nil => intro acc h; simp [h]
  | cons b l ih =>
    intro acc h
    simp only [List.foldl_cons]
    by_cases hb : b ∈ acc
    · rw [if_pos hb]
      obtain ⟨h1, h2⟩ := ih acc h
      refine ⟨h1, fun a => ?_⟩
      rw [h2]
      constructor
      · rintro (h | h)
        · exact Or.inl h
        · exact Or.inr (List.mem_cons_of_mem _ h)
      · rintro (h | h)
        · exact Or.inl h
        · rcases List.mem_cons.1 h with rfl | h
          · exact Or.inl hb
          · exact Or.inr h
    · rw [if_neg hb]
      obtain ⟨h1, h2⟩ := ih (acc ++ [b]) (by
        rw [List.nodup_append]
        refine ⟨h, List.nodup_singleton _, ?_⟩
        intro a ha c hc
        rw [List.mem_singleton] at hc
        subst hc
        rintro rfl
        exact hb ha)
      refine ⟨h1, fun a => ?_⟩
      rw [h2]
      simp [or_assoc]

theorem firsts_nodup (l : List α) : (firsts l).Nodup := (firsts_aux l [] List.nodup_nil).1

theorem mem_firsts (l : List α) (a : α) : a ∈ firsts l ↔ a ∈ l := by
  have := (firsts_aux l [] List.nodup_nil).2 a
  simpa [firsts] using this

theorem firsts_length_le (l : List α) : (firsts l).length ≤ l.length :=
  (List.subperm_of_subset (firsts_nodup l) (fun a ha => (mem_firsts l a).1 ha)).length_le

theorem firsts_length_eq (l : List α) : (firsts l).length = l.length ↔ l.Nodup := by
  constructor
  · intro h
    have hp := (List.subperm_of_subset (firsts_nodup l) (fun a ha => (mem_firsts l a).1 ha)).perm_of_length_le (by omega)
    exact hp.nodup_iff.1 (firsts_nodup l)
  · intro h
    exact le_antisymm (firsts_length_le l) (List.subperm_of_subset h (fun a ha => (mem_firsts l a).2 ha)).length_le

end weed

/-! ### time -/

theorem climb_spec (tau : K) (time : List K) : ∀ (fuel i : ℕ), time.length < fuel + i → (∀ j < i, ∀ a, time[j]? = some a → a < tau) →
    (∃ j ∈ time, tau ≤ j) →
    ∃ n c, climb tau time fuel i = some n ∧ time[n]? = some c ∧ tau ≤ c ∧ ∀ j < n, ∀ a, time[j]? = some a → a < tau := by
  intro fuel
  induction fuel with
  | zero =>
    intro i hi hlt ⟨c, hc, htc⟩
    exfalso
    obtain ⟨j, hj, rfl⟩ := List.getElem_of_mem hc
    exact absurd (hlt j (by omega) _ (List.getElem?_eq_getElem hj)) (not_lt.2 htc)
  | succ fuel ih =>
    intro i hi hlt hex
    have hil : i < time.length := by
      by_contra hge
      obtain ⟨c, hc, htc⟩ := hex
      obtain ⟨j, hj, rfl⟩ := List.getElem_of_mem hc
      exact absurd (hlt j (by omega) _ (List.getElem?_eq_getElem hj)) (not_lt.2 htc)
    have he := List.getElem?_eq_getElem hil
    simp only [climb, he]
    by_cases hc : time[i] < tau
    · rw [if_pos hc]
      apply ih (i + 1) (by omega) _ hex
      intro j hj a ha
      rcases Nat.lt_succ_iff_lt_or_eq.1 hj with h | h
      · exact hlt j h a ha
      · subst h
        rw [he] at ha
        simp only [Option.some.injEq] at ha
        exact ha ▸ hc
    · rw [if_neg hc]
      exact ⟨i, _, rfl, he, not_lt.1 hc, hlt⟩

/-- What `timeInterp` finds when the time lies within the stored ones. -/
theorem timeInterp_spec {time : List K} {a b tau : K} (ha : time.head? = some a) (hb : time.getLast? = some b) (h1 : a ≤ tau) (h2 : tau ≤ b) :
    (∃ n, timeInterp time tau = some (n, 0) ∧ time[n]? = some tau) ∨
      ∃ n c d, timeInterp time tau = some (n, (tau - c) / (d - c)) ∧ time[n]? = some c ∧ time[n + 1]? = some d ∧ c < tau ∧ tau < d := by
  have hmem : b ∈ time := List.mem_of_getLast? hb
  obtain ⟨n, c, hn, hc, htc, hlt⟩ := climb_spec tau time (time.length + 1) 0 (by omega) (by intro j hj; omega) ⟨b, hmem, h2⟩
  have h0 : time[0]? = some a := by rw [← List.head?_eq_getElem?]; exact ha
  have hneg : ¬ (tau < a ∨ b < tau) := by
    rintro (h | h)
    · exact absurd h (not_lt.2 h1)
    · exact absurd h (not_lt.2 h2)
  simp only [timeInterp, ha, hb, if_neg hneg, hn]
  rcases htc.lt_or_eq with hlt' | heq
  · -- strictly below: one step down
    match n, hc, hlt with
    | 0, hc, hlt =>
      rw [h0] at hc
      simp only [Option.some.injEq] at hc
      subst hc
      exact absurd hlt' (not_lt.2 h1)
    | m + 1, hc, hlt =>
      have hml : m < time.length := by
        have := (List.getElem?_eq_some_iff.1 hc).1
        omega
      have hm := List.getElem?_eq_getElem hml
      have hmt := hlt m (Nat.lt_succ_self m) _ hm
      have hd : descend tau time (m + 1) = some m := by
        have hstep : descend tau time (m + 1) = descend tau time m := by
          simp only [descend, hc, if_pos hlt']
        rw [hstep]
        cases m with
        | zero => simp only [descend, hm, if_neg (not_lt.2 hmt.le)]
        | succ m => simp only [descend, hm, if_neg (not_lt.2 hmt.le)]
      right
      refine ⟨m, time[m], c, ?_, hm, hc, hmt, hlt'⟩
      simp only [hd, hm, if_neg hmt.ne', hc]
  · subst heq
    left
    have hd : descend tau time n = some n := by
      cases n with
      | zero => simp only [descend, hc, if_neg (lt_irrefl tau)]
      | succ n => simp only [descend, hc, if_neg (lt_irrefl tau)]
    refine ⟨n, ?_, hc⟩
    simp only [hd, hc, if_true]

end Verif.Sww
