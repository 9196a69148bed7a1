import Verif.Caching.Lemmas

/-! # C102: a cached call returns what the call would compute -/

namespace Verif.Caching

set_option linter.unusedSectionVars false

variable {A K : Type} [DecidableEq A] [Field K] [DecidableEq K]
variable {H : Type} [DecidableEq H]
variable {C R W : Type} [DecidableEq C]

/-- What a call without caching does. -/
def direct (f : Fn A K C R W) (w : W) (a : Args A K) : Outcome R :=
  match f.run w a with
  | some t => .value t
  | none => .raised

/-- A property of all slots of the store. -/
def All (P : Key H → Slot A K C R → Prop) (st : Store A K H C R) : Prop := ∀ key, ∀ s ∈ st key, P key s

theorem all_at {P : Key H → Slot A K C R → Prop} {st : Store A K H C R} (hst : All P st) (h0 : ∀ key, P key {}) {key : Key H} {k : ℕ}
    {g : Slot A K C R → Slot A K C R} (hg : ∀ s, P key s → P key (g s)) : All P (st.at' key (modify g k)) := by
  intro key' s hs
  unfold Store.at' at hs
  split_ifs at hs with h
  · subst h
    rcases mem_modify hs with h | h | ⟨s0, h0', h⟩
    · exact hst _ s h
    · rw [h]; exact h0 _
    · rw [h]
      refine hg s0 ?_
      rcases h0' with h | h
      · exact hst _ s0 h
      · rw [h]; exact h0 _
  · exact hst _ s hs

theorem at_at (st : Store A K H C R) (key : Key H) (g g' : List (Slot A K C R) → List (Slot A K C R)) :
    (st.at' key g).at' key g' = st.at' key fun l => g' (g l) := by
  funext key'
  simp only [Store.at']
  split_ifs <;> rfl

/-- The calls made use the functions `F` on the arguments `S`. -/
def Uses (F : Fn A K C R W → Prop) (S : Args A K → Prop) : List (Op A K H C R W) → Prop
  | [] => True
  | .call f a _ _ :: ops => F f ∧ S a ∧ Uses F S ops
  | _ :: ops => Uses F S ops

/-- Functions of the same name with the same code do the same. -/
def SameCode (F : Fn A K C R W → Prop) : Prop := ∀ f g, F f → F g → f.name = g.name → f.code = g.code → f.run = g.run

/-- The functions do not depend on anything but their arguments. -/
def Pure (F : Fn A K C R W → Prop) : Prop := ∀ f, F f → ∀ w w', f.run w = f.run w'

/-- Slots are right if a result and code stored together are right for all arguments with that name. -/
def RightHash (h : Hasher A K H) (F : Fn A K C R W → Prop) (S : Args A K → Prop) (key : Key H) (s : Slot A K C R) : Prop :=
  ∀ t d code, s.result = .good t → s.admin = .good (d, code) → ∀ f a, F f → S a → f.code = code → keyOf h f a = key → ∀ w, f.run w a = some t

/-- Slots are right if the result is that for the stored arguments. -/
def RightArgs (F : Fn A K C R W → Prop) (S : Args A K → Prop) (key : Key H) (s : Slot A K C R) : Prop :=
  (∀ b, s.args = .good b → S b) ∧
    ∀ t b d code, s.result = .good t → s.args = .good b → s.admin = .good (d, code) → ∀ f, F f → f.name = key.name → f.code = code →
      ∀ w, f.run w b = some t

theorem all_clearFn {P : Key H → Slot A K C R → Prop} {st : Store A K H C R} (hst : All P st) (name : String) : All P (clearFn st name) := by
  intro key s hs
  unfold clearFn at hs
  split_ifs at hs
  · simp at hs
  · exact hst _ s hs

/-- Calls in a store of right slots. -/
theorem cache_hash {h : Hasher A K H} {F : Fn A K C R W → Prop} {S : Args A K → Prop} (hsame : SameCode F) (hpure : Pure F)
    (hinj : ∀ a b, S a → S b → myhash h (pair a.args a.kwargs) = myhash h (pair b.args b.kwargs) → a = b) {st : Store A K H C R}
    (hst : All (RightHash h F S) st) {w : W} {f : Fn A K C R W} {a : Args A K} (hf : F f) (ha : S a) (given : Bool) (deps : Val A K) (o : Opts) :
    All (RightHash h F S) (cache h st w f a given deps o).1 ∧
      ((cache h st w f a given deps o).2 = direct f w a ∨ (o.test = true ∧ (cache h st w f a given deps o).2 = .nothing)) := by
  have h0 : ∀ key, RightHash h F S key ({} : Slot A K C R) := by
    intro key t d code hr
    simp at hr
  unfold cache
  simp only
  generalize hl : (if o.evaluate = true then (0, none) else lookup f.code a given deps 0 (st (keyOf h f a))) = r
  obtain ⟨k, t⟩ := r
  cases t with
  | some t =>
    simp only
    split_ifs at hl
    · simp at hl
    · obtain ⟨s, hs, b, d, h1, h2, h3, h4, h5, h6⟩ := lookup_some hl
      have := hst _ s hs t d f.code h1 h3 f a hf ha rfl rfl w
      refine ⟨hst, Or.inl ?_⟩
      simp [direct, this]
  | none =>
    simp only
    by_cases ht : o.test = true
    · rw [if_pos ht]
      exact ⟨hst, Or.inr ⟨ht, rfl⟩⟩
    · rw [if_neg ht]
      have h1 : All (RightHash h F S) (st.at' (keyOf h f a) (modify (fun s => { s with args := .good a }) k)) :=
        all_at hst h0 fun s hs => hs
      cases hr : f.run w a with
      | none => exact ⟨h1, Or.inl (by simp [direct, hr])⟩
      | some t =>
        refine ⟨all_at h1 h0 fun s hs => ?_, Or.inl (by simp [direct, hr])⟩
        intro t' d code e1 e2 g b hg hb hcode hkey w'
        simp only [File.good.injEq, Prod.mk.injEq] at e1 e2
        obtain ⟨-, e2⟩ := e2
        subst e1
        simp only [keyOf, Key.mk.injEq] at hkey
        have hab : b = a := hinj b a hb ha hkey.2
        subst hab
        rw [hsame g f hg hf hkey.1 (hcode.trans e2.symm), hpure f hf w' w, hr]

/-- One step keeps the slots right. -/
theorem step_hash {h : Hasher A K H} {stat : W → String → A × A} {path : String → A} {F : Fn A K C R W → Prop} {S : Args A K → Prop}
    (hsame : SameCode F) (hpure : Pure F)
    (hinj : ∀ a b, S a → S b → myhash h (pair a.args a.kwargs) = myhash h (pair b.args b.kwargs) → a = b) {s : State A K H C R W}
    (hst : All (RightHash h F S) s.store) (op : Op A K H C R W) (hop : Uses F S [op]) : All (RightHash h F S) (step h stat path s op).1.store := by
  have h0 : ∀ key, RightHash h F S key ({} : Slot A K C R) := by
    intro key t d code hr
    simp at hr
  cases op with
  | call f a ps o => exact (cache_hash hsame hpure hinj hst hop.1 hop.2.1 _ _ o).1
  | clear key => exact all_at hst h0 fun s _ => h0 _
  | clearFn name => exact all_clearFn hst name
  | world w => exact hst
  | loseResult key k d =>
    refine all_at hst h0 fun s hs => ?_
    intro t d' code hr
    cases d <;> simp [lost] at hr
  | loseArgs key k d => exact all_at hst h0 fun s hs => hs
  | loseAdmin key k d =>
    refine all_at hst h0 fun s hs => ?_
    intro t d' code hr ha
    cases d <;> simp [lost] at ha

theorem uses_cons {F : Fn A K C R W → Prop} {S : Args A K → Prop} {op : Op A K H C R W} {ops : List (Op A K H C R W)} (h : Uses F S (op :: ops)) :
    Uses F S [op] ∧ Uses F S ops := by
  cases op <;> simp_all [Uses]

theorem run_all {h : Hasher A K H} {stat : W → String → A × A} {path : String → A} {F : Fn A K C R W → Prop} {S : Args A K → Prop}
    {P : Key H → Slot A K C R → Prop}
    (hstep : ∀ (s : State A K H C R W) op, Uses F S [op] → All P s.store → All P (step h stat path s op).1.store)
    {s : State A K H C R W} (hst : All P s.store) {ops : List (Op A K H C R W)} (hops : Uses F S ops) : All P (run h stat path s ops).store := by
  induction ops generalizing s with
  | nil => exact hst
  | cons op ops ih =>
    obtain ⟨h1, h2⟩ := uses_cons hops
    exact ih (hstep s op h1 hst) h2

/-- An empty cache. -/
def fresh (w : W) : State A K H C R W := ⟨w, fun _ => []⟩

/-- **C102.** No two argument lists with the same hash: after any history (calls with any options that may raise exceptions, clearing, lost or
damaged files) a call of a function that depends on its arguments only has the outcome of calling it directly. -/
theorem C102_no_collisions {h : Hasher A K H} {stat : W → String → A × A} {path : String → A} {F : Fn A K C R W → Prop} {S : Args A K → Prop}
    (hsame : SameCode F) (hpure : Pure F)
    (hinj : ∀ a b, S a → S b → myhash h (pair a.args a.kwargs) = myhash h (pair b.args b.kwargs) → a = b)
    {w : W} {ops : List (Op A K H C R W)} (hops : Uses F S ops) {f : Fn A K C R W} {a : Args A K} (hf : F f) (ha : S a) (ps : List String) (o : Opts)
    (ho : o.test = false) :
    (step h stat path (run h stat path (fresh w) ops) (.call f a ps o)).2 = direct f (run h stat path (fresh w) ops).world a := by
  have hall : All (RightHash h F S) (run h stat path (fresh w : State A K H C R W) ops).store :=
    run_all (F := F) (S := S) (fun s op hop hst => step_hash hsame hpure hinj hst op hop) (fun key s hs => by simp [fresh] at hs) hops
  rcases (cache_hash hsame hpure hinj hall hf ha (!ps.isEmpty)
    (.dict (depstats (stat (run h stat path (fresh w : State A K H C R W) ops).world) path ps)) o (w := (run h stat path (fresh w) ops).world)).2 with h1 | h1
  · exact h1
  · rw [ho] at h1
    simp at h1

/-- Calls in a store of right slots, by the arguments. -/
theorem cache_args {h : Hasher A K H} {F : Fn A K C R W → Prop} {S : Args A K → Prop} (hsame : SameCode F) (hpure : Pure F)
    (htotal : ∀ f, F f → ∀ w a, S a → (f.run w a).isSome) (hexact : ∀ a b, S a → S b → compare b.args a.args = true →
      compare b.kwargs a.kwargs = true → b = a) {st : Store A K H C R}
    (hst : All (RightArgs F S) st) {w : W} {f : Fn A K C R W} {a : Args A K} (hf : F f) (ha : S a) (given : Bool) (deps : Val A K) (o : Opts) :
    All (RightArgs F S) (cache h st w f a given deps o).1 ∧
      ((cache h st w f a given deps o).2 = direct f w a ∨ (o.test = true ∧ (cache h st w f a given deps o).2 = .nothing)) := by
  have h0 : ∀ key : Key H, RightArgs F S key ({} : Slot A K C R) := by
    intro key
    refine ⟨fun b hb => by simp at hb, ?_⟩
    intro t b d code hr
    simp at hr
  unfold cache
  simp only
  generalize hl : (if o.evaluate = true then (0, none) else lookup f.code a given deps 0 (st (keyOf h f a))) = r
  obtain ⟨k, t⟩ := r
  cases t with
  | some t =>
    simp only
    split_ifs at hl
    · simp at hl
    · obtain ⟨s, hs, b, d, h1, h2, h3, h4, h5, h6⟩ := lookup_some hl
      have hb := (hst _ s hs).1 b h2
      have hba := hexact a b ha hb h4 h5
      subst hba
      have := (hst _ s hs).2 t b d f.code h1 h2 h3 f hf rfl rfl w
      refine ⟨hst, Or.inl ?_⟩
      simp [direct, this]
  | none =>
    simp only
    by_cases ht : o.test = true
    · rw [if_pos ht]
      exact ⟨hst, Or.inr ⟨ht, rfl⟩⟩
    · rw [if_neg ht]
      cases hr : f.run w a with
      | none =>
        have := htotal f hf w a ha
        rw [hr] at this
        simp at this
      | some t =>
        simp only
        rw [at_at]
        simp only [modify_modify]
        refine ⟨all_at hst h0 fun s hs => ⟨fun b hb => ?_, ?_⟩, Or.inl (by simp [direct, hr])⟩
        · simp only [File.good.injEq] at hb
          rw [← hb]
          exact ha
        · intro t' b d code e1 e2 e3 g hg hname hcode w'
          simp only [File.good.injEq, Prod.mk.injEq] at e1 e2 e3
          obtain ⟨-, e3⟩ := e3
          subst e1 e2
          rw [hsame g f hg hf hname (hcode.trans e3.symm), hpure f hf w' w, hr]

/-- **C102.** Arguments that are compared exactly (no dictionaries and arrays) and functions that never raise an exception: even if different
arguments have the same hash the outcome is that of calling the function directly. -/
theorem C102_exact {h : Hasher A K H} {stat : W → String → A × A} {path : String → A} {F : Fn A K C R W → Prop}
    (hsame : SameCode F) (hpure : Pure F) (htotal : ∀ f, F f → ∀ w a, (f.run w a).isSome)
    {w : W} {ops : List (Op A K H C R W)} (hops : Uses F (fun a => a.args.Plain ∧ a.kwargs = .dict .nil) ops) {f : Fn A K C R W} {a : Args A K}
    (hf : F f) (ha : a.args.Plain ∧ a.kwargs = .dict .nil) (ps : List String) (o : Opts) (ho : o.test = false) :
    (step h stat path (run h stat path (fresh w) ops) (.call f a ps o)).2 = direct f (run h stat path (fresh w) ops).world a := by
  have hexact : ∀ a b : Args A K, (a.args.Plain ∧ a.kwargs = .dict .nil) → (b.args.Plain ∧ b.kwargs = .dict .nil) → compare b.args a.args = true →
      compare b.kwargs a.kwargs = true → b = a := by
    rintro ⟨a, ka⟩ ⟨b, kb⟩ ⟨h1, rfl⟩ ⟨h2, rfl⟩ h3 -
    rw [compare_plain b a h2 h3]
  have h0 : ∀ key : Key H, RightArgs F (fun a => a.args.Plain ∧ a.kwargs = .dict .nil) key ({} : Slot A K C R) := by
    intro key
    refine ⟨fun b hb => by simp at hb, ?_⟩
    intro t b d code hr
    simp at hr
  have hstep : ∀ (s : State A K H C R W) op, Uses F (fun a => a.args.Plain ∧ a.kwargs = .dict .nil) [op] →
      All (RightArgs F (fun a => a.args.Plain ∧ a.kwargs = .dict .nil)) s.store →
      All (RightArgs F (fun a => a.args.Plain ∧ a.kwargs = .dict .nil)) (step h stat path s op).1.store := by
    intro s op hop hst
    cases op with
    | call f a ps o => exact (cache_args hsame hpure (fun f hf w a _ => htotal f hf w a) hexact hst hop.1 hop.2.1 _ _ o).1
    | clear key => exact all_at hst h0 fun s _ => h0 _
    | clearFn name => exact all_clearFn hst name
    | world w => exact hst
    | loseResult key k d =>
      refine all_at hst h0 fun s hs => ⟨hs.1, ?_⟩
      intro t b d' code hr
      cases d <;> simp [lost] at hr
    | loseArgs key k d =>
      refine all_at hst h0 fun s hs => ⟨fun b hb => ?_, ?_⟩
      · cases d <;> simp [lost] at hb
      · intro t b d' code hr ha
        cases d <;> simp [lost] at ha
    | loseAdmin key k d =>
      refine all_at hst h0 fun s hs => ⟨hs.1, ?_⟩
      intro t b d' code hr _ ha
      cases d <;> simp [lost] at ha
  have hall := run_all hstep (fun key s hs => by simp [fresh] at hs) hops (s := (fresh w : State A K H C R W))
  rcases (cache_args (h := h) hsame hpure (fun f hf w a _ => htotal f hf w a) hexact hall hf ha (!ps.isEmpty)
    (.dict (depstats (stat (run h stat path (fresh w : State A K H C R W) ops).world) path ps)) o (w := (run h stat path (fresh w) ops).world)).2 with h1 | h1
  · exact h1
  · rw [ho] at h1
    simp at h1

end Verif.Caching
