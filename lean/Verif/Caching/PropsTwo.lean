import Verif.Caching.Props

/-! # C102: reuse, clearing, and where cached results are wrong -/

namespace Verif.Caching

set_option linter.unusedSectionVars false

variable {A K : Type} [DecidableEq A] [Field K] [DecidableEq K]
variable {H : Type} [DecidableEq H]
variable {C R W : Type} [DecidableEq C]

theorem at_same (st : Store A K H C R) (key : Key H) (g : List (Slot A K C R) → List (Slot A K C R)) : st.at' key g key = g (st key) := by
  simp [Store.at']

/-- A call that evaluates writes the first slot. -/
theorem cache_fresh {h : Hasher A K H} {st : Store A K H C R} {w : W} {f : Fn A K C R W} {a : Args A K} {given : Bool} {deps : Val A K} {o : Opts}
    (ho : o.evaluate = true ∨ st (keyOf h f a) = []) (ht : o.test = false) {t : R} (hr : f.run w a = some t) :
    (cache h st w f a given deps o).2 = .value t ∧
      ∃ s rest, (cache h st w f a given deps o).1 (keyOf h f a) = s :: rest ∧ s = ⟨.good t, .good a, .good (deps, f.code)⟩ := by
  unfold cache
  simp only
  have hl : (if o.evaluate = true then (0, none) else lookup f.code a given deps 0 (st (keyOf h f a))) = ((0, none) : ℕ × Option R) := by
    rcases ho with ho | ho
    · rw [if_pos ho]
    · split_ifs
      · rfl
      · rw [ho]; rfl
  rw [hl]
  simp only
  rw [if_neg (by simp [ht]), hr]
  simp only
  refine ⟨trivial, ?_⟩
  rw [at_at, at_same]
  simp only [modify_modify]
  cases st (keyOf h f a) with
  | nil => exact ⟨_, [], rfl, rfl⟩
  | cons s l => exact ⟨_, l, rfl, rfl⟩

/-- **C102.** Dependencies: once the value was computed with `ps` as dependencies, a later call with as many dependencies (or none) gives the stored
value, whatever has become of the files. -/
theorem C102_changed_files_unnoticed {h : Hasher A K H} {stat : W → String → A × A} {path : String → A} {s : State A K H C R W} {f : Fn A K C R W}
    {a : Args A K} {ps qs : List String} {o : Opts} (ho : o.evaluate = true ∨ s.store (keyOf h f a) = []) (ht : o.test = false) {t : R}
    (hr : f.run s.world a = some t) (hqs : qs = [] ∨ qs.length = ps.length) (w : W) (o' : Opts) (ho' : o'.evaluate = false) :
    (step h stat path { (step h stat path s (.call f a ps o)).1 with world := w } (.call f a qs o')).2 = .value t := by
  obtain ⟨-, sl, rest, h1, h2⟩ := cache_fresh (h := h) (st := s.store) (w := s.world) (given := !ps.isEmpty)
    (deps := .dict (depstats (stat s.world) path ps)) ho ht hr
  unfold step
  simp only
  generalize hst : (cache h s.store s.world f a (!ps.isEmpty) (.dict (depstats (stat s.world) path ps)) o).1 = st at h1
  unfold cache
  simp only
  rw [ho']
  simp only [Bool.false_eq_true, if_false]
  rw [h1, h2]
  have hdeps : (!qs.isEmpty && !compare (.dict (depstats (stat s.world) path ps) : Val A K) (.dict (depstats (stat w) path qs))) = false := by
    rcases hqs with rfl | hqs
    · simp
    · simp [compare, depstats_length, hqs]
  simp only [lookup, hdeps, Bool.false_eq_true, if_false, compare_refl, Bool.and_self, decide_true, if_true]

/-- **C102.** Only another number of dependencies is noticed: then the function is called again. -/
theorem C102_count_noticed {h : Hasher A K H} {stat : W → String → A × A} {path : String → A} {s : State A K H C R W} {f : Fn A K C R W}
    {a : Args A K} {ps qs : List String} {o : Opts} (ho : o.evaluate = true ∨ s.store (keyOf h f a) = []) (ht : o.test = false) {t : R}
    (hr : f.run s.world a = some t) (hqs : qs ≠ [] ∧ qs.length ≠ ps.length) (w : W) :
    (step h stat path { (step h stat path s (.call f a ps o)).1 with world := w } (.call f a qs {})).2 = direct f w a := by
  obtain ⟨-, sl, rest, h1, h2⟩ := cache_fresh (h := h) (st := s.store) (w := s.world) (given := !ps.isEmpty)
    (deps := .dict (depstats (stat s.world) path ps)) ho ht hr
  unfold step
  simp only
  generalize hst : (cache h s.store s.world f a (!ps.isEmpty) (.dict (depstats (stat s.world) path ps)) o).1 = st at h1
  unfold cache
  simp only [Bool.false_eq_true, if_false]
  rw [h1, h2]
  have hdeps : (!qs.isEmpty && !compare (.dict (depstats (stat s.world) path ps) : Val A K) (.dict (depstats (stat w) path qs))) = true := by
    have : qs.isEmpty = false := by simpa using hqs.1
    have h3 : ¬ ps.length = qs.length := fun h => hqs.2 h.symm
    simp [compare, depstats_length, this, h3]
  simp only [lookup, hdeps, if_true, direct]
  cases f.run w a <;> rfl

/-- **C102.** After clearing the arguments, or the function, nothing is found. -/
theorem C102_clear {h : Hasher A K H} {stat : W → String → A × A} {path : String → A} {s : State A K H C R W} {f : Fn A K C R W} {a : Args A K}
    {ps : List String} :
    (step h stat path (step h stat path s (.clear (keyOf h f a))).1 (.call f a ps { test := true })).2 = .nothing ∧
    (step h stat path (step h stat path s (.clearFn f.name)).1 (.call f a ps { test := true })).2 = .nothing := by
  refine ⟨?_, ?_⟩
  · unfold step
    simp only
    unfold cache clear
    simp only [at_same, Bool.false_eq_true, if_false, if_true]
    cases hl : s.store (keyOf h f a) with
    | nil => simp [modify, lookup]
    | cons sl l => simp [modify, lookup]
  · unfold step
    simp only
    unfold cache clearFn
    simp only [Bool.false_eq_true, if_false, if_true]
    rw [show f.name.toList.isPrefixOf (keyOf h f a).name.toList = true by simp [keyOf]]
    simp [lookup]

/-! ## Wrong results -/

/-- A keyword argument with an array. -/
def kwArray (d : List ℚ) : Args String ℚ := ⟨.tuple .nil, .dict (.cons (pair (.atom "x") (.array d)) .nil)⟩

/-- A positional argument that is an array. -/
def posArray (d : List ℚ) : Args String ℚ := ⟨.tuple (.cons (.array d) .nil), .dict .nil⟩

/-- The first element of the array given by keyword. -/
def firstOf : Fn String ℚ Unit ℚ Unit := ⟨"first", (), fun _ a => match a.kwargs with
  | .dict (.cons (.tuple (.cons _ (.cons (.array (x :: _)) .nil))) .nil) => some x
  | _ => none⟩

/-- The number of elements of the array given by position. -/
def sizeOf' : Fn String ℚ Unit ℚ Unit := ⟨"size", (), fun _ a => match a.args with
  | .tuple (.cons (.array l) .nil) => some l.length
  | _ => none⟩

/-- **C102.** Arrays given by keyword: after a call with `x = [1, 3]` the call with `x = [2, 2]` returns the first element 1, for any hash function. -/
theorem C102_wrong_keyword (H : Type) [DecidableEq H] (h : Hasher String ℚ H) (stat : Unit → String → String × String) :
    (step h stat id (step h stat id (fresh () : State String ℚ H Unit ℚ Unit) (.call firstOf (kwArray [1, 3]) [] {})).1
      (.call firstOf (kwArray [2, 2]) [] {})).2 = .value 1 ∧ firstOf.run () (kwArray [2, 2]) = some 2 := by
  have hk : keyOf h firstOf (kwArray [2, 2]) = keyOf h firstOf (kwArray [1, 3]) := by
    simp only [keyOf, kwArray, myhash, myhashes, pair]
    norm_num
  refine ⟨?_, rfl⟩
  obtain ⟨-, sl, rest, h1, h2⟩ := cache_fresh (h := h) (st := (fresh () : State String ℚ H Unit ℚ Unit).store) (w := ()) (f := firstOf)
    (a := kwArray [1, 3]) (given := false) (deps := .dict .nil) (o := {}) (Or.inr rfl) rfl (t := 1) rfl
  have : (step h stat id (fresh () : State String ℚ H Unit ℚ Unit) (.call firstOf (kwArray [1, 3]) [] {})).1.store
      (keyOf h firstOf (kwArray [2, 2])) = sl :: rest := by rw [hk]; exact h1
  generalize (step h stat id (fresh () : State String ℚ H Unit ℚ Unit) (.call firstOf (kwArray [1, 3]) [] {})).1 = st at this
  simp only [step, cache, Bool.false_eq_true, if_false]
  rw [this, h2]
  simp [lookup, kwArray, compare, compareAll, Vals.length, firstOf]

/-- **C102.** Arrays of different lengths: after a call with `[2, 2, 2]` the call with `[2]` returns the length 3, for any hash function. -/
theorem C102_wrong_array (H : Type) [DecidableEq H] (h : Hasher String ℚ H) (stat : Unit → String → String × String) :
    (step h stat id (step h stat id (fresh () : State String ℚ H Unit ℚ Unit) (.call sizeOf' (posArray [2, 2, 2]) [] {})).1
      (.call sizeOf' (posArray [2]) [] {})).2 = .value 3 ∧ sizeOf'.run () (posArray [2]) = some 1 := by
  have hk : keyOf h sizeOf' (posArray [2]) = keyOf h sizeOf' (posArray [2, 2, 2]) := by
    simp only [keyOf, posArray, myhash, myhashes, pair]
    norm_num
  refine ⟨?_, rfl⟩
  obtain ⟨-, sl, rest, h1, h2⟩ := cache_fresh (h := h) (st := (fresh () : State String ℚ H Unit ℚ Unit).store) (w := ()) (f := sizeOf')
    (a := posArray [2, 2, 2]) (given := false) (deps := .dict .nil) (o := {}) (Or.inr rfl) rfl (t := 3) rfl
  have : (step h stat id (fresh () : State String ℚ H Unit ℚ Unit) (.call sizeOf' (posArray [2, 2, 2]) [] {})).1.store
      (keyOf h sizeOf' (posArray [2])) = sl :: rest := by rw [hk]; exact h1
  generalize (step h stat id (fresh () : State String ℚ H Unit ℚ Unit) (.call sizeOf' (posArray [2, 2, 2]) [] {})).1 = st at this
  simp only [step, cache, Bool.false_eq_true, if_false]
  rw [this, h2]
  simp [lookup, posArray, compare, compareAll, Vals.length, sizeOf', sameArray]

/-- A list or a tuple with the atom `a`. -/
def inList : Args String ℚ := ⟨.tuple (.cons (.list (.cons (.atom "a") .nil)) .nil), .dict .nil⟩

/-- The same in a tuple. -/
def inTuple : Args String ℚ := ⟨.tuple (.cons (.tuple (.cons (.atom "a") .nil)) .nil), .dict .nil⟩

/-- A function that refuses tuples. -/
def listOnly : Fn String ℚ Unit ℚ Unit := ⟨"listOnly", (), fun _ a => match a.args with
  | .tuple (.cons (.list _) .nil) => some 1
  | _ => none⟩

/-- **C102.** An exception in a forced evaluation: the arguments are already stored beside the old result, and the next call, which should raise the
exception again, returns the result for the other arguments with that hash, for any hash function. -/
theorem C102_wrong_after_exception (H : Type) [DecidableEq H] (h : Hasher String ℚ H) (stat : Unit → String → String × String) :
    let s1 := (step h stat id (fresh () : State String ℚ H Unit ℚ Unit) (.call listOnly inList [] {})).1
    let r2 := step h stat id s1 (.call listOnly inTuple [] { evaluate := true })
    r2.2 = .raised ∧ (step h stat id r2.1 (.call listOnly inTuple [] {})).2 = .value 1 ∧ listOnly.run () inTuple = none := by
  have hk : keyOf h listOnly inTuple = keyOf h listOnly inList := by
    simp only [keyOf, inTuple, inList, myhash, myhashes, pair]
  intro s1 r2
  obtain ⟨-, sl, rest, h1, h2⟩ := cache_fresh (h := h) (st := (fresh () : State String ℚ H Unit ℚ Unit).store) (w := ()) (f := listOnly)
    (a := inList) (given := false) (deps := .dict .nil) (o := {}) (Or.inr rfl) rfl (t := 1) rfl
  have e1 : s1.store (keyOf h listOnly inTuple) = sl :: rest := by rw [hk]; exact h1
  have hrun : listOnly.run () inTuple = none := rfl
  have e2 : r2 = ({ s1 with store := s1.store.at' (keyOf h listOnly inTuple) (modify (fun s => { s with args := .good inTuple }) 0) }, .raised) := by
    simp only [r2, step, cache, if_true, Bool.false_eq_true, if_false, hrun]
  refine ⟨by rw [e2], ?_, rfl⟩
  rw [e2]
  simp only [step, cache, Bool.false_eq_true, if_false, at_same]
  rw [e1, h2]
  simp [modify, lookup, compare_refl, listOnly]

end Verif.Caching
