import Verif.ParStruct.Patterns

/-! # Parts of programs which the processors can finish together -/

namespace Verif.ParStruct

variable {V R R' β : Type}

/-- No message is on its way. -/
def quiet (P : ℕ → Prog V β) : Net V β := ⟨P, fun _ => []⟩

/-- The processors `S` can finish the programs `f` together, without messages being stored, and end with the values `r`, whatever
they do afterwards and whatever others do. -/
def Phase (S : List ℕ) (f : ℕ → Prog V R) (r : ℕ → R) : Prop :=
  ∀ (β : Type) (k : ℕ → R → Prog V β) (P : ℕ → Prog V β), (∀ p ∈ S, P p = (f p).bind (k p)) →
    ∃ w, Run w (quiet P) (quiet fun p => if p ∈ S then k p (r p) else P p)

theorem Phase.congr {S : List ℕ} {f f' : ℕ → Prog V R} {r r' : ℕ → R} (h : Phase S f r) (hf : ∀ p ∈ S, f' p = f p)
    (hr : ∀ p ∈ S, r' p = r p) : Phase S f' r' := by
  intro β k P hP
  obtain ⟨w, hw⟩ := h β k P fun p hp => by rw [hP p hp, hf p hp]
  refine ⟨w, ?_⟩
  have e : (fun p => if p ∈ S then k p (r' p) else P p) = fun p => if p ∈ S then k p (r p) else P p := by
    funext p
    by_cases hp : p ∈ S
    · rw [if_pos hp, if_pos hp, hr p hp]
    · rw [if_neg hp, if_neg hp]
  rw [e]
  exact hw

theorem Phase.done (S : List ℕ) (r : ℕ → R) : Phase (V := V) S (fun p => .done (r p)) r := by
  intro β k P hP
  refine ⟨0, ?_⟩
  have e : (fun p => if p ∈ S then k p (r p) else P p) = P := by
    funext p
    by_cases hp : p ∈ S
    · rw [if_pos hp, hP p hp]
      rfl
    · rw [if_neg hp]
  rw [e]
  exact .refl _

theorem Phase.bind {S : List ℕ} {f : ℕ → Prog V R} {r : ℕ → R} {g : ℕ → R → Prog V R'} {r' : ℕ → R'} (hf : Phase S f r)
    (hg : Phase S (fun p => g p (r p)) r') : Phase S (fun p => (f p).bind (g p)) r' := by
  intro β k P hP
  obtain ⟨w, hw⟩ := hf β (fun p x => (g p x).bind (k p)) P fun p hp => by rw [hP p hp, Prog.bind_assoc]
  obtain ⟨w', hw'⟩ := hg β k (fun p => if p ∈ S then (g p (r p)).bind (k p) else P p) fun p hp => if_pos hp
  refine ⟨w + w', hw.trans ?_⟩
  have e : (fun p => if p ∈ S then k p (r' p) else if p ∈ S then (g p (r p)).bind (k p) else P p)
      = fun p => if p ∈ S then k p (r' p) else P p := by
    funext p
    by_cases hp : p ∈ S
    · rw [if_pos hp, if_pos hp]
    · rw [if_neg hp, if_neg hp, if_neg hp]
  rw [e] at hw'
  exact hw'

/-- A part which only some of the processors take part in. -/
theorem Phase.among {L S : List ℕ} (hL : ∀ p ∈ L, p ∈ S) {f : ℕ → Prog V R} {r : ℕ → R} (hf : Phase L f r) (d : ℕ → R) :
    Phase S (fun p => if p ∈ L then f p else .done (d p)) (fun p => if p ∈ L then r p else d p) := by
  intro β k P hP
  beta_reduce at hP
  obtain ⟨w, hw⟩ := hf β k P fun p hp => by rw [hP p (hL p hp), if_pos hp]
  refine ⟨w, ?_⟩
  have e : (fun p => if p ∈ S then k p (if p ∈ L then r p else d p) else P p) = fun p => if p ∈ L then k p (r p) else P p := by
    funext p
    by_cases hp : p ∈ L
    · rw [if_pos (hL p hp), if_pos hp, if_pos hp]
    · rw [if_neg hp]
      by_cases hs : p ∈ S
      · rw [if_pos hs, if_neg hp, hP p hs, if_neg hp]
        rfl
      · rw [if_neg hs, if_neg hp]
  rw [e]
  exact hw

/-- One message. -/
theorem Phase.message {S : List ℕ} {a b : ℕ} (ha : a ∈ S) (hb : b ∈ S) (hab : a ≠ b) (v : V) (x : R) (g : V → R) (d : ℕ → R) :
    Phase S (fun p => if p = a then .send b v (.done x) else if p = b then .recv a fun m => .done (g m) else .done (d p))
      (fun p => if p = a then x else if p = b then g v else d p) := by
  intro β k P hP
  beta_reduce at hP
  have h1 : P a = .send b v (k a x) := by
    rw [hP a ha, if_pos rfl]
    rfl
  have h2 : P b = .recv a fun m => k b (g m) := by
    rw [hP b hb, if_neg hab.symm, if_pos rfl]
    rfl
  refine ⟨2 + 0, .step (.meet (n := quiet P) h1 h2 rfl) ?_⟩
  have e : (fun p => if p ∈ S then k p (if p = a then x else if p = b then g v else d p) else P p)
      = Function.update (Function.update P a (k a x)) b (k b (g v)) := by
    funext p
    by_cases hpb : p = b
    · subst hpb
      rw [if_pos hb, if_neg hab.symm, if_pos rfl, Function.update_self]
    · rw [Function.update_of_ne hpb]
      by_cases hpa : p = a
      · subst hpa
        rw [if_pos ha, if_pos rfl, Function.update_self]
      · rw [Function.update_of_ne hpa]
        by_cases hs : p ∈ S
        · rw [if_pos hs, if_neg hpa, if_neg hpb, hP p hs, if_neg hpa, if_neg hpb]
          rfl
        · rw [if_neg hs]
  rw [e]
  exact .refl _

/-- Several values from one processor to another. -/
theorem Phase.transfer {S : List ℕ} {a b : ℕ} (ha : a ∈ S) (hb : b ∈ S) (hab : a ≠ b) (x : R) (d : ℕ → R) :
    ∀ (vs : List V) (g : List V → R),
    Phase S (fun p => if p = a then (sendAll b vs).bind fun _ => .done x else if p = b then (recvAll a vs.length).bind fun l => .done (g l)
        else .done (d p))
      (fun p => if p = a then x else if p = b then g vs else d p)
  | [], g => by
    refine (Phase.done S fun p => if p = a then x else if p = b then g [] else d p).congr (fun p _ => ?_) fun _ _ => rfl
    split_ifs <;> rfl
  | v :: vs, g => by
    have h1 := Phase.message ha hb hab v (none : Option V) Option.some fun _ => none
    have h2 := Phase.transfer ha hb hab x d vs fun l => g (v :: l)
    have h3 := Phase.bind (R := Option V) (g := fun p m => if p = a then (sendAll b vs).bind fun _ => .done x
      else if p = b then (recvAll a vs.length).bind fun l => .done (g ((m.getD v) :: l)) else .done (d p)) h1 (h2.congr (fun p _ => by
        by_cases hpa : p = a
        · rw [if_pos hpa, if_pos hpa]
        · by_cases hpb : p = b
          · simp only [if_neg hpa, if_pos hpb, Option.getD_some]
          · simp only [if_neg hpa, if_neg hpb]) fun _ _ => rfl)
    refine h3.congr (fun p _ => ?_) fun _ _ => rfl
    by_cases hpa : p = a
    · subst hpa
      simp only [if_pos]
      rfl
    · by_cases hpb : p = b
      · subst hpb
        simp only [if_neg hpa, if_pos]
        show Prog.recv a _ = Prog.recv a _
        congr 1
        funext m
        simp only [Prog.bind_assoc]
        rfl
      · simp only [if_neg hpa, if_neg hpb]
        rfl

/-- Values reported to the master. -/
theorem report_phase {S : List ℕ} {e master : ℕ} (he : e ∈ S) (hm : master ∈ S) (vals : ℕ → Prog V (List V)) {vs : List V}
    (hv : vals e = .done vs) {n : ℕ} (hn : vs.length = n) :
    Phase S (fun p => report e master n p (vals p)) (fun p => if p = master then vs else []) := by
  subst hn
  by_cases h : e = master
  · subst h
    refine (Phase.done S fun p => if p = e then vs else []).congr (fun p _ => ?_) fun _ _ => rfl
    unfold report
    by_cases hp : p = e
    · subst hp
      rw [if_pos rfl, if_pos rfl, if_pos rfl, hv]
    · rw [if_neg hp, if_neg hp, if_neg hp]
  · refine (Phase.transfer he hm h ([] : List V) (fun _ => []) vs id).congr (fun p _ => ?_) (fun p _ => ?_)
    · unfold report
      by_cases hp : p = e
      · subst hp
        rw [if_neg h, if_pos rfl, if_pos rfl, hv]
        rfl
      · rw [if_neg hp, if_neg hp, if_neg hp]
        split_ifs
        · exact (Prog.bind_done _).symm
        · rfl
    · by_cases hp : p = e
      · subst hp
        rw [if_neg h, if_pos rfl]
      · rw [if_neg hp]
        rfl

/-- Values sent by the master to each of some processors. -/
theorem each_phase {S : List ℕ} {master : ℕ} (hm : master ∈ S) (vs : List V) : ∀ {l : List ℕ} (d : ℕ → List V), (∀ p ∈ l, p ∈ S) → l.Nodup →
    Phase S (fun p => if p = master then (sendEach master vs l).bind fun _ => .done vs else if p ∈ l then recvAll master vs.length
        else .done (d p))
      (fun p => if p = master then vs else if p ∈ l then vs else d p)
  | [], d, _, _ => by
    refine (Phase.done S fun p => if p = master then vs else d p).congr (fun p _ => ?_) (fun p _ => ?_)
    · by_cases hp : p = master
      · rw [if_pos hp, if_pos hp]
        rfl
      · rw [if_neg hp, if_neg hp, if_neg (by simp)]
    · by_cases hp : p = master
      · rw [if_pos hp, if_pos hp]
      · rw [if_neg hp, if_neg hp, if_neg (by simp)]
  | i :: l, d, hl, hnd => by
    have hl' : ∀ p ∈ l, p ∈ S := fun p hp => hl p (List.mem_cons_of_mem _ hp)
    have hil := (List.nodup_cons.1 hnd).1
    by_cases hi : i = master
    · subst hi
      refine (each_phase hm vs (l := l) d hl' (List.nodup_cons.1 hnd).2).congr (fun p _ => ?_) (fun p _ => ?_)
      · by_cases hp : p = i
        · subst hp
          rw [if_pos rfl, if_pos rfl]
          conv_lhs => unfold sendEach
          rw [if_pos rfl]
        · rw [if_neg hp, if_neg hp]
          simp only [List.mem_cons, hp, false_or]
      · by_cases hp : p = i
        · rw [if_pos hp, if_pos hp]
        · rw [if_neg hp, if_neg hp]
          simp only [List.mem_cons, hp, false_or]
    · have h1 := Phase.transfer hm (hl i List.mem_cons_self) (Ne.symm hi) ([] : List V) d vs id
      have ih := each_phase hm vs (l := l) (fun p => if p = i then vs else d p) hl' (List.nodup_cons.1 hnd).2
      have h2 := Phase.bind (g := fun p m => if p = master then (sendEach master vs l).bind fun _ => .done vs
        else if p ∈ l then recvAll master vs.length else .done m) h1 (ih.congr (fun p _ => by
          by_cases hp : p = master
          · rw [if_pos hp, if_pos hp]
          · rw [if_neg hp, if_neg hp]
            split_ifs <;> rfl) fun _ _ => rfl)
      refine h2.congr (fun p _ => ?_) (fun p _ => ?_)
      · by_cases hp : p = master
        · subst hp
          simp only [if_pos]
          conv_lhs => unfold sendEach
          rw [if_neg hi, Prog.bind_assoc, Prog.bind_assoc]
          rfl
        · simp only [if_neg hp]
          by_cases hp' : p = i
          · subst hp'
            simp only [if_pos List.mem_cons_self, if_pos, if_neg hil, Prog.bind_assoc]
            exact (Prog.bind_done _).symm
          · simp only [List.mem_cons, hp', false_or, if_false]
            rfl
      · by_cases hp : p = master
        · rw [if_pos hp, if_pos hp]
        · rw [if_neg hp, if_neg hp]
          by_cases hp' : p = i
          · subst hp'
            rw [if_pos List.mem_cons_self, if_neg hil, if_pos rfl]
          · simp only [List.mem_cons, hp', false_or, if_false]

/-- Values announced by the master. -/
theorem announce_phase {S l : List ℕ} {master : ℕ} (hm : master ∈ S) (hl : ∀ p ∈ l, p ∈ S) (hnd : l.Nodup) (vals : ℕ → Prog V (List V))
    {vs : List V} (hv : vals master = .done vs) {n : ℕ} (hn : vs.length = n) :
    Phase S (fun p => announce master n l p (vals p)) (fun p => if p = master then vs else if p ∈ l then vs else []) := by
  subst hn
  refine (each_phase hm vs (fun _ => []) hl hnd).congr (fun p _ => ?_) fun _ _ => rfl
  unfold announce
  by_cases hp : p = master
  · subst hp
    rw [if_pos rfl, if_pos rfl, hv]
    rfl
  · rw [if_neg hp, if_neg hp]

/-- A sum over the processors of an inlet, the loop. -/
theorem addUp_phase {K : Type} [Add K] {S : List ℕ} {master : ℕ} (hm : master ∈ S) (x : ℕ → K) : ∀ {l : List ℕ} (acc : K) (d : ℕ → K),
    (∀ p ∈ l, p ∈ S) → l.Nodup →
    Phase S (fun p => if p = master then addUp master l acc else if p ∈ l then .send master (.num (x p)) (.done (x p)) else .done (d p))
      (fun p => if p = master then l.foldl (fun a i => if i = master then a else a + x i) acc else if p ∈ l then x p else d p)
  | [], acc, d, _, _ => by
    refine (Phase.done S fun p => if p = master then acc else d p).congr (fun p _ => ?_) (fun p _ => ?_)
    · by_cases hp : p = master
      · rw [if_pos hp, if_pos hp]
        rfl
      · rw [if_neg hp, if_neg hp, if_neg (by simp)]
    · by_cases hp : p = master
      · rw [if_pos hp, if_pos hp]
        rfl
      · rw [if_neg hp, if_neg hp, if_neg (by simp)]
  | i :: l, acc, d, hl, hnd => by
    have hl' : ∀ p ∈ l, p ∈ S := fun p hp => hl p (List.mem_cons_of_mem _ hp)
    have hil := (List.nodup_cons.1 hnd).1
    by_cases hi : i = master
    · subst hi
      refine (addUp_phase hm x (l := l) acc d hl' (List.nodup_cons.1 hnd).2).congr (fun p _ => ?_) (fun p _ => ?_)
      · by_cases hp : p = i
        · subst hp
          rw [if_pos rfl, if_pos rfl]
          conv_lhs => unfold addUp
          rw [if_pos rfl]
        · rw [if_neg hp, if_neg hp]
          simp only [List.mem_cons, hp, false_or]
      · by_cases hp : p = i
        · subst hp
          rw [if_pos rfl, if_pos rfl, List.foldl_cons, if_pos rfl]
        · rw [if_neg hp, if_neg hp]
          simp only [List.mem_cons, hp, false_or]
    · have h1 := Phase.message (V := Msg K) (hl i List.mem_cons_self) hm hi (.num (x i)) (Msg.num (x i)) (fun m => m) fun p => Msg.num (d p)
      have ih := addUp_phase hm x (l := l) (acc + x i) (fun p => if p = i then x i else d p) hl' (List.nodup_cons.1 hnd).2
      have h2 := Phase.bind (g := fun p m => if p = master then (match m with | .num y => addUp master l (acc + y) | _ => .fail)
        else if p ∈ l then .send master (.num (x p)) (.done (x p)) else if p = i then .done (x i) else .done (d p)) h1
        (ih.congr (fun p _ => by
          by_cases hp : p = master
          · subst hp
            simp only [if_pos, if_neg (Ne.symm hi)]
          · simp only [if_neg hp]
            split_ifs <;> rfl) fun _ _ => rfl)
      refine h2.congr (fun p _ => ?_) (fun p _ => ?_)
      · by_cases hp : p = master
        · subst hp
          simp only [if_pos, if_neg (Ne.symm hi)]
          conv_lhs => unfold addUp
          rw [if_neg hi]
          show Prog.recv i _ = Prog.recv i _
          congr 1
        · simp only [if_neg hp]
          by_cases hp' : p = i
          · subst hp'
            simp only [if_pos List.mem_cons_self, if_pos, if_neg hil]
            rfl
          · simp only [List.mem_cons, hp', false_or, if_false]
            rfl
      · by_cases hp : p = master
        · subst hp
          rw [if_pos rfl, if_pos rfl, List.foldl_cons, if_neg hi]
        · rw [if_neg hp, if_neg hp]
          by_cases hp' : p = i
          · subst hp'
            rw [if_pos List.mem_cons_self, if_neg hil, if_pos rfl]
          · simp only [List.mem_cons, hp', false_or, if_false]

/-- A sum over the processors of an inlet. -/
theorem total_phase {K : Type} [Add K] {S : List ℕ} {master : ℕ} (hm : master ∈ S) (hnd : S.Nodup) (x : ℕ → K) :
    Phase S (fun p => total master S p (x p))
      (fun p => if p = master then S.foldl (fun a i => if i = master then a else a + x i) (x master) else x p) := by
  refine (addUp_phase hm x (x master) x (fun _ h => h) hnd).congr (fun p hS => ?_) (fun p hS => ?_)
  · unfold total
    by_cases hp : p = master
    · subst hp
      rw [if_pos rfl, if_pos rfl]
    · rw [if_neg hp, if_neg hp, if_pos hS]
  · by_cases hp : p = master
    · rw [if_pos hp, if_pos hp]
    · rw [if_neg hp, if_neg hp, if_pos hS]

/-- From a phase to all executions: processors `S` execute `f`, others do nothing. -/
theorem Phase.run {S : List ℕ} {f : ℕ → Prog V R} {r : ℕ → R} (h : Phase S f r) (idle : ℕ → R) :
    ∃ w, Run w (quiet fun p => if p ∈ S then f p else .done (idle p)) (quiet fun p => .done (if p ∈ S then r p else idle p)) := by
  obtain ⟨w, hw⟩ := h R (fun _ x => .done x) (fun p => if p ∈ S then f p else .done (idle p)) fun p hp => by
    rw [if_pos hp]
    exact (Prog.bind_done _).symm
  have e : (fun p => if p ∈ S then (Prog.done (r p) : Prog V R) else if p ∈ S then f p else .done (idle p))
      = fun p => .done (if p ∈ S then r p else idle p) := by
    funext p
    by_cases hp : p ∈ S
    · rw [if_pos hp, if_pos hp]
    · rw [if_neg hp, if_neg hp, if_neg hp]
  rw [e] at hw
  exact ⟨w, hw⟩

end Verif.ParStruct
