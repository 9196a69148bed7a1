import Verif.ParInlet.Spec
import Mathlib.Algebra.BigOperators.Group.Finset.Sigma

/-! # The merge of sorted stages -/

set_option linter.unusedSectionVars false

namespace Verif.ParInlet

open Verif.Ops

variable {K : Type*} [Field K] [LinearOrder K] [IsStrictOrderedRing K] {N : ℕ → ℕ} {n : ℕ}

/-! ## Gathering -/

theorem foldl_gather {M : Type*} [AddCommMonoid M] (master : ℕ) (val : ℕ → M) (l : List ℕ) (hnd : l.Nodup) (a : M) :
    l.foldl (fun acc i => if i = master then acc else acc + val i) a = a + ∑ i ∈ l.toFinset.erase master, val i := by
  induction l generalizing a with
  | nil => simp
  | cons i is ih =>
    rw [List.nodup_cons] at hnd
    rw [List.foldl_cons, ih hnd.2, List.toFinset_cons]
    by_cases h : i = master
    · subst h
      rw [if_pos rfl, Finset.erase_insert_eq_erase]
    · rw [if_neg h, Finset.erase_insert_of_ne h, Finset.sum_insert (by simp [hnd.1]), add_assoc]

theorem gather_eq (master : ℕ) (procs : List ℕ) (hm : master ∈ procs) (hnd : procs.Nodup) (val : ℕ → K) :
    gather master procs val = ∑ p ∈ procs.toFinset, val p := by
  unfold gather
  rw [foldl_gather master val procs hnd, Finset.add_sum_erase _ _ (by simpa using hm)]

theorem total_eq (g : Gathered K) (master : ℕ) (procs : List ℕ) (hm : master ∈ procs) (hnd : procs.Nodup) :
    g.total master procs = ∑ p ∈ procs.toFinset, g.len p := by
  unfold Gathered.total
  have h := foldl_gather master g.len procs hnd (g.len master)
  rw [Finset.add_sum_erase _ _ (by simpa using hm)] at h
  rw [← h]
  congr 1
  funext acc i
  by_cases hi : i = master <;> simp [hi]

/-! ## The search -/

/-- What the search returns: the least next stage. -/
theorem pick_spec (g : Gathered K) (top : K) (procs : List ℕ) (pos : ℕ → ℕ)
    (htop : ∀ p ∈ procs, ∀ s, g.next p (pos p) = some s → s < top) :
    ((∃ p ∈ procs, pos p < g.len p) →
      ∃ i ∈ procs, ∃ cur, pick g top procs pos = (cur, some i) ∧ g.next i (pos i) = some cur ∧
        ∀ p ∈ procs, ∀ s, g.next p (pos p) = some s → cur ≤ s) := by
  -- invariant over the processors already seen
  have key : ∀ (todo seen : List ℕ) (acc : K × Option ℕ),
      (∀ p ∈ todo, ∀ s, g.next p (pos p) = some s → s < top) →
      ((acc = (top, none) ∧ ∀ p ∈ seen, g.next p (pos p) = none) ∨
        ∃ i ∈ seen, acc.2 = some i ∧ g.next i (pos i) = some acc.1 ∧ ∀ p ∈ seen, ∀ s, g.next p (pos p) = some s → acc.1 ≤ s) →
      ((todo.foldl (pickStep g pos) acc = (top, none) ∧ ∀ p ∈ seen ++ todo, g.next p (pos p) = none) ∨
        ∃ i ∈ seen ++ todo, (todo.foldl (pickStep g pos) acc).2 = some i ∧
          g.next i (pos i) = some (todo.foldl (pickStep g pos) acc).1 ∧
          ∀ p ∈ seen ++ todo, ∀ s, g.next p (pos p) = some s → (todo.foldl (pickStep g pos) acc).1 ≤ s) := by
    intro todo
    induction todo with
    | nil => intro seen acc _ h; simpa using h
    | cons i is ih =>
      intro seen acc ht h
      rw [List.foldl_cons]
      have := ih (seen ++ [i]) (pickStep g pos acc i) (fun p hp => ht p (by simp [hp])) ?_
      · simpa using this
      · unfold pickStep
        cases hn : g.next i (pos i) with
        | none =>
          simp only
          rcases h with ⟨ha, hall⟩ | ⟨j, hj, h1, h2, h3⟩
          · refine Or.inl ⟨ha, fun p hp => ?_⟩
            rcases List.mem_append.1 hp with hp | hp
            · exact hall p hp
            · rw [List.mem_singleton.1 hp, hn]
          · refine Or.inr ⟨j, by simp [hj], h1, h2, fun p hp s hs => ?_⟩
            rcases List.mem_append.1 hp with hp | hp
            · exact h3 p hp s hs
            · rw [List.mem_singleton.1 hp, hn] at hs
              cases hs
        | some s0 =>
          simp only
          rcases h with ⟨ha, hall⟩ | ⟨j, hj, h1, h2, h3⟩
          · have hlt : s0 < acc.1 := by rw [ha]; exact ht i (by simp) s0 hn
            rw [if_pos hlt]
            refine Or.inr ⟨i, by simp, rfl, hn, fun p hp s hs => ?_⟩
            rcases List.mem_append.1 hp with hp | hp
            · rw [hall p hp] at hs
              cases hs
            · rw [List.mem_singleton.1 hp, hn] at hs
              cases hs
              exact le_refl _
          · by_cases hlt : s0 < acc.1
            · rw [if_pos hlt]
              refine Or.inr ⟨i, by simp, rfl, hn, fun p hp s hs => ?_⟩
              rcases List.mem_append.1 hp with hp | hp
              · exact hlt.le.trans (h3 p hp s hs)
              · rw [List.mem_singleton.1 hp, hn] at hs
                cases hs
                exact le_refl _
            · rw [if_neg hlt]
              refine Or.inr ⟨j, by simp [hj], h1, h2, fun p hp s hs => ?_⟩
              rcases List.mem_append.1 hp with hp | hp
              · exact h3 p hp s hs
              · rw [List.mem_singleton.1 hp, hn] at hs
                cases hs
                exact not_lt.1 hlt
  rintro ⟨p0, hp0, hlt⟩
  have hk := key procs [] (top, none) htop (Or.inl ⟨rfl, by simp⟩)
  rw [List.nil_append] at hk
  rcases hk with ⟨-, hall⟩ | ⟨i, hi, h1, h2, h3⟩
  · have := hall p0 hp0
    unfold Gathered.next at this
    rw [dif_pos hlt] at this
    cases this
  · exact ⟨i, hi, (pick g top procs pos).1, by unfold pick; rw [← h1], h2, h3⟩

/-! ## The merge -/

/-- Sum over the places filled so far. -/
def over (procs : List ℕ) (pos : ℕ → ℕ) (f : ℕ → ℕ → K) : K := ∑ p ∈ procs.toFinset, ∑ r ∈ Finset.range (pos p), f p r

theorem over_update (procs : List ℕ) (pos : ℕ → ℕ) (f : ℕ → ℕ → K) (i : ℕ) (hi : i ∈ procs) :
    over procs (Function.update pos i (pos i + 1)) f = over procs pos f + f i (pos i) := by
  unfold over
  have hi' : i ∈ procs.toFinset := by simpa using hi
  rw [← Finset.add_sum_erase _ _ hi', ← Finset.add_sum_erase _ (fun p => ∑ r ∈ Finset.range (pos p), f p r) hi',
    Function.update_self, Finset.sum_range_succ]
  have : ∑ p ∈ procs.toFinset.erase i, ∑ r ∈ Finset.range (Function.update pos i (pos i + 1) p), f p r =
      ∑ p ∈ procs.toFinset.erase i, ∑ r ∈ Finset.range (pos p), f p r := by
    refine Finset.sum_congr rfl fun p hp => ?_
    rw [Function.update_of_ne (Finset.ne_of_mem_erase hp)]
  rw [this]
  ring

/-- Stage at a place of the order of a processor. -/
def Gathered.st (g : Gathered K) (p r : ℕ) : K := (g.next p r).getD 0

theorem next_of_lt (g : Gathered K) {p r : ℕ} (h : r < g.len p) : g.next p r = some (g.stage p (g.order p ⟨r, h⟩)) := by
  unfold Gathered.next
  rw [dif_pos h]

theorem st_of_lt (g : Gathered K) {p r : ℕ} (h : r < g.len p) : g.st p r = g.stage p (g.order p ⟨r, h⟩) := by
  unfold Gathered.st
  rw [next_of_lt g h]
  rfl

theorem next_eq_some (g : Gathered K) {p r : ℕ} {s : K} (h : g.next p r = some s) : r < g.len p ∧ g.st p r = s := by
  unfold Gathered.st
  refine ⟨?_, by rw [h]; rfl⟩
  by_contra hlt
  unfold Gathered.next at h
  rw [dif_neg hlt] at h
  cases h

/-- State of the merge. -/
structure Good (g : Gathered K) (procs : List ℕ) (volume : K) (f : Fill K) : Prop where
  bound : ∀ p ∈ procs, f.pos p ≤ g.len p
  low : ∀ p ∈ procs, ∀ r, r < f.pos p → g.st p r ≤ f.prev
  high : ∀ p ∈ procs, ∀ r, f.pos p ≤ r → r < g.len p → f.prev ≤ g.st p r
  areaEq : f.area = over procs f.pos g.nextArea
  volEq : f.volume = over procs f.pos fun p r => g.nextArea p r * (f.prev - g.st p r)
  volLe : f.volume ≤ volume
  areaPos : 0 < f.area

/-- A finished merge: the level is above everything filled and below everything else. -/
structure Done (g : Gathered K) (procs : List ℕ) (volume : K) (f : Fill K) : Prop extends Good g procs volume f where
  next : ∀ p ∈ procs, ∀ r, f.pos p ≤ r → r < g.len p → f.prev + (volume - f.volume) / f.area ≤ g.st p r

/-- Each processor's order sorts its stages. -/
def Gathered.Sorted (g : Gathered K) (procs : List ℕ) : Prop := ∀ p ∈ procs, Sorts (g.stage p) (g.order p)

theorem st_mono (g : Gathered K) (procs : List ℕ) (hs : g.Sorted procs) {p r r' : ℕ} (hp : p ∈ procs) (h : r ≤ r') (h' : r' < g.len p) :
    g.st p r ≤ g.st p r' := by
  rw [st_of_lt g h', st_of_lt g (lt_of_le_of_lt h h')]
  exact hs p hp _ _ h

theorem fillLoop_good (g : Gathered K) (top : K) (procs : List ℕ) (hs : g.Sorted procs) (volume : K)
    (ha : ∀ p ∈ procs, ∀ j, 0 < g.area p j)
    (htop : ∀ p ∈ procs, ∀ r, r < g.len p → g.st p r < top) (m : ℕ) :
    ∀ f : Fill K, Good g procs volume f → ∑ p ∈ procs.toFinset, f.pos p + m = ∑ p ∈ procs.toFinset, g.len p →
      ∃ f', fillLoop g top procs volume m f = .ok f' ∧ Done g procs volume f' := by
  induction m with
  | zero =>
    intro f hf hm
    refine ⟨f, rfl, { hf with next := fun p hp r h1 h2 => ?_ }⟩
    rw [add_zero] at hm
    have := (Finset.sum_eq_sum_iff_of_le fun p hp => hf.bound p (by simpa using hp)).1 hm p (by simpa using hp)
    omega
  | succ m ih =>
    intro f hf hm
    have hex : ∃ p ∈ procs, f.pos p < g.len p := by
      by_contra hno
      push Not at hno
      have : ∑ p ∈ procs.toFinset, g.len p ≤ ∑ p ∈ procs.toFinset, f.pos p :=
        Finset.sum_le_sum fun p hp => hno p (by simpa using hp)
      omega
    obtain ⟨i, hi, cur, hpick, hnext, hleast⟩ := pick_spec g top procs f.pos
      (fun p hp s hs' => by
        obtain ⟨h1, h2⟩ := next_eq_some g hs'
        rw [← h2]
        exact htop p hp _ h1) hex
    obtain ⟨hil, hic⟩ := next_eq_some g hnext
    have hcur : ∀ p ∈ procs, ∀ r, f.pos p ≤ r → r < g.len p → cur ≤ g.st p r := by
      intro p hp r h1 h2
      have h3 : f.pos p < g.len p := lt_of_le_of_lt h1 h2
      have := hleast p hp _ (next_of_lt g h3)
      rw [← st_of_lt g h3] at this
      exact this.trans (st_mono g procs hs hp h1 h2)
    have hpc : f.prev ≤ cur := by rw [← hic]; exact hf.high i hi _ (le_refl _) hil
    unfold fillLoop
    rw [hpick]
    simp only
    by_cases htmp : f.volume + f.area * (cur - f.prev) ≥ volume
    · rw [if_pos htmp]
      refine ⟨f, rfl, { hf with next := fun p hp r h1 h2 => ?_ }⟩
      have h4 : (volume - f.volume) / f.area ≤ cur - f.prev := by
        rw [div_le_iff₀ hf.areaPos]
        linarith [mul_comm f.area (cur - f.prev)]
      have := hcur p hp r h1 h2
      linarith
    · rw [if_neg htmp]
      have hna : g.nextArea i (f.pos i) = g.area i (g.order i ⟨f.pos i, hil⟩) := by
        unfold Gathered.nextArea
        rw [dif_pos hil]
      refine ih _ ⟨?_, ?_, ?_, ?_, ?_, (not_le.1 htmp).le, ?_⟩ ?_
      · intro p hp
        show Function.update f.pos i (f.pos i + 1) p ≤ g.len p
        by_cases hpi : p = i
        · subst hpi
          rw [Function.update_self]
          exact hil
        · rw [Function.update_of_ne hpi]
          exact hf.bound p hp
      · intro p hp r hr
        show g.st p r ≤ cur
        change r < Function.update f.pos i (f.pos i + 1) p at hr
        by_cases hpi : p = i
        · subst hpi
          rw [Function.update_self] at hr
          rcases Nat.lt_succ_iff_lt_or_eq.1 hr with h | h
          · exact (hf.low p hp r h).trans hpc
          · rw [h, hic]
        · rw [Function.update_of_ne hpi] at hr
          exact (hf.low p hp r hr).trans hpc
      · intro p hp r h1 h2
        show cur ≤ g.st p r
        change Function.update f.pos i (f.pos i + 1) p ≤ r at h1
        refine hcur p hp r ?_ h2
        by_cases hpi : p = i
        · subst hpi
          rw [Function.update_self] at h1
          omega
        · rw [Function.update_of_ne hpi] at h1
          exact h1
      · show f.area + g.nextArea i (f.pos i) = over procs (Function.update f.pos i (f.pos i + 1)) g.nextArea
        rw [over_update procs f.pos _ i hi, hf.areaEq]
      · show f.volume + f.area * (cur - f.prev) =
          over procs (Function.update f.pos i (f.pos i + 1)) fun p r => g.nextArea p r * (cur - g.st p r)
        rw [over_update procs f.pos _ i hi, hic, sub_self, mul_zero, add_zero, hf.volEq, hf.areaEq]
        unfold over
        rw [Finset.sum_mul, ← Finset.sum_add_distrib]
        refine Finset.sum_congr rfl fun p _ => ?_
        rw [Finset.sum_mul, ← Finset.sum_add_distrib]
        exact Finset.sum_congr rfl fun r _ => by ring
      · show 0 < f.area + g.nextArea i (f.pos i)
        rw [hna]
        exact add_pos hf.areaPos (ha i hi _)
      · show ∑ p ∈ procs.toFinset, Function.update f.pos i (f.pos i + 1) p + m = _
        have hi' : i ∈ procs.toFinset := by simpa using hi
        have h1 : ∑ p ∈ procs.toFinset, Function.update f.pos i (f.pos i + 1) p =
            (f.pos i + 1) + ∑ p ∈ procs.toFinset.erase i, f.pos p := by
          rw [← Finset.add_sum_erase _ _ hi', Function.update_self]
          congr 1
          exact Finset.sum_congr rfl fun p hp => Function.update_of_ne (Finset.ne_of_mem_erase hp) _ _
        rw [← Finset.add_sum_erase _ _ hi'] at hm
        omega

/-- The merge succeeds with a finished state. -/
theorem merge_done (g : Gathered K) (top : K) (master : ℕ) (procs : List ℕ) (hm : master ∈ procs) (hnd : procs.Nodup)
    (hs : g.Sorted procs) (volume : K) (hv : 0 ≤ volume) (ha : ∀ p ∈ procs, ∀ j, 0 < g.area p j)
    (htop : ∀ p ∈ procs, ∀ j, g.stage p j < top) (hne : ∃ p ∈ procs, 0 < g.len p) :
    ∃ f, merge g top master procs volume = .ok (f.pos, f.prev + (volume - f.volume) / f.area) ∧ Done g procs volume f := by
  have htop' : ∀ p ∈ procs, ∀ r, r < g.len p → g.st p r < top := by
    intro p hp r hr
    rw [st_of_lt g hr]
    exact htop p hp _
  obtain ⟨i, hi, cur, hpick, hnext, hleast⟩ := pick_spec g top procs (fun _ => 0)
    (fun p hp s hs' => by
      obtain ⟨h1, h2⟩ := next_eq_some g hs'
      rw [← h2]
      exact htop' p hp _ h1) hne
  obtain ⟨hil, hic⟩ := next_eq_some g hnext
  have hi' : i ∈ procs.toFinset := by simpa using hi
  have htot := total_eq g master procs hm hnd
  unfold merge
  cases ht : g.total master procs with
  | zero =>
    rw [ht] at htot
    have := (Finset.sum_eq_zero_iff.1 htot.symm) i hi'
    omega
  | succ m =>
    simp only
    rw [hpick]
    simp only
    have hna : g.nextArea i 0 = g.area i (g.order i ⟨0, hil⟩) := by
      unfold Gathered.nextArea
      rw [dif_pos hil]
    have hupd : ∀ h : ℕ → ℕ → K, over procs (Function.update (fun _ => 0) i 1) h = h i 0 := by
      intro h
      have := over_update procs (fun _ => 0) h i hi
      simp only [zero_add] at this
      rw [this]
      unfold over
      simp
    have hcur : ∀ p ∈ procs, ∀ r, r < g.len p → cur ≤ g.st p r := by
      intro p hp r h2
      have h3 : 0 < g.len p := by omega
      have := hleast p hp _ (next_of_lt g h3)
      rw [← st_of_lt g h3] at this
      exact this.trans (st_mono g procs hs hp (Nat.zero_le _) h2)
    obtain ⟨f, h1, h2⟩ := fillLoop_good g top procs hs volume ha htop' m
      ⟨Function.update (fun _ => 0) i 1, 0, g.nextArea i 0, cur⟩
      { bound := by
          intro p hp
          show Function.update (fun _ => 0) i 1 p ≤ g.len p
          by_cases hpi : p = i
          · subst hpi
            rw [Function.update_self]
            exact hil
          · rw [Function.update_of_ne hpi]
            exact Nat.zero_le _
        low := by
          intro p hp r hr
          show g.st p r ≤ cur
          change r < Function.update (fun _ => 0) i 1 p at hr
          by_cases hpi : p = i
          · subst hpi
            rw [Function.update_self] at hr
            rw [show r = 0 by omega, hic]
          · rw [Function.update_of_ne hpi] at hr
            omega
        high := fun p hp r _ h2 => hcur p hp r h2
        areaEq := (hupd g.nextArea).symm
        volEq := by
          rw [hupd]
          show 0 = g.nextArea i 0 * (cur - g.st i 0)
          rw [hic]
          ring
        volLe := hv
        areaPos := by
          show 0 < g.nextArea i 0
          rw [hna]
          exact ha i hi _ }
      (by
        show ∑ p ∈ procs.toFinset, Function.update (fun _ => 0) i 1 p + m = _
        rw [← htot, ht, ← Finset.add_sum_erase _ _ hi', Function.update_self,
          Finset.sum_eq_zero fun p hp => Function.update_of_ne (Finset.ne_of_mem_erase hp) _ _]
        omega)
    rw [h1]
    exact ⟨f, rfl, h2⟩

end Verif.ParInlet
