import Verif.MeshFile.Spec

/-! # Lemmas on texts, words and lines -/

set_option linter.unusedSectionVars false

namespace Verif.MeshFile

theorem isSpace_iff (c : Char) : isSpace c = true ↔ White c := by
  simp only [isSpace, White, Bool.or_eq_true, Bool.and_eq_true, decide_eq_true_eq, beq_iff_eq]
  tauto

theorem isSpace_blank : isSpace ' ' = true := by decide

theorem not_space {c : Char} (h : ¬ White c) : isSpace c = false := by
  cases hb : isSpace c with
  | false => rfl
  | true => exact absurd ((isSpace_iff c).1 hb) h

theorem not_blank {c : Char} (h : ¬ White c) : c ≠ ' ' := by
  rintro rfl
  exact h ((isSpace_iff ' ').1 isSpace_blank)

theorem white_nl : White '\n' := (isSpace_iff _).1 (by decide)
theorem white_cr : White '\r' := (isSpace_iff _).1 (by decide)

theorem Word.oneLine {w : Str} (h : Word w) : OneLine w :=
  ⟨fun hm => h.2 _ hm white_nl, fun hm => h.2 _ hm white_cr⟩

/-! ## Words -/

theorem words_blank (s : Str) : words (' ' :: s) = words s := by
  rw [words, if_pos isSpace_blank]

theorem words_word : ∀ {w : Str}, Word w → words w = [w]
  | [], h => absurd rfl h.1
  | [c], h => by
    rw [words, if_neg (by simp [not_space (h.2 c (by simp))]), if_pos (by simp)]
    rfl
  | c :: d :: w, h => by
    have hd : Word (d :: w) := ⟨by simp, fun x hx => h.2 x (List.mem_cons_of_mem _ hx)⟩
    rw [words, if_neg (by simp [not_space (h.2 c (by simp))]), if_neg (by simp [not_space (h.2 d (by simp))]), words_word hd]
    rfl

theorem words_cons : ∀ {w : Str}, Word w → ∀ s, words (w ++ ' ' :: s) = w :: words s
  | [], h, _ => absurd rfl h.1
  | [c], h, s => by
    rw [List.singleton_append, words, if_neg (by simp [not_space (h.2 c (by simp))]), if_pos (by simp [isSpace_blank]),
      words_blank]
  | c :: d :: w, h, s => by
    have hd : Word (d :: w) := ⟨by simp, fun x hx => h.2 x (List.mem_cons_of_mem _ hx)⟩
    rw [List.cons_append, words, if_neg (by simp [not_space (h.2 c (by simp))]),
      if_neg (by simp [not_space (h.2 d (by simp))]), words_cons hd]
    rfl

theorem words_nil : words [] = [] := rfl

theorem words_list {α : Type} (f : α → Str) (h : ∀ a, Word (f a)) :
    ∀ l : List α, words (l.flatMap fun a => f a ++ [' ']) = l.map f
  | [] => rfl
  | a :: l => by
    rw [List.flatMap_cons, List.append_assoc, List.singleton_append, words_cons (h a), words_list f h l, List.map_cons]

theorem dropWhile_parts (p : Char → Bool) :
    ∀ s : Str, ∃ a, s = a ++ s.dropWhile p ∧ (∀ c ∈ a, p c = true) ∧ ∀ c u, s.dropWhile p = c :: u → p c = false
  | [] => ⟨[], rfl, by simp, by simp⟩
  | x :: s => by
    obtain ⟨a, ha, hs, hn⟩ := dropWhile_parts p s
    by_cases hx : p x = true
    · refine ⟨x :: a, ?_, ?_, ?_⟩
      · rw [List.dropWhile_cons, if_pos hx, List.cons_append, ← ha]
      · intro c hc
        rcases List.mem_cons.1 hc with rfl | hc
        · exact hx
        · exact hs c hc
      · rw [List.dropWhile_cons, if_pos hx]
        exact hn
    · refine ⟨[], ?_, by simp, ?_⟩
      · rw [List.dropWhile_cons, if_neg hx, List.nil_append]
      · rw [List.dropWhile_cons, if_neg hx]
        intro c u h
        injection h with h _
        subst h
        simpa using hx

theorem dropWhile_none (p : Char → Bool) (s : Str) (h : ∀ c u, s = c :: u → p c = false) : s.dropWhile p = s := by
  cases s with
  | nil => rfl
  | cons c u => rw [List.dropWhile_cons, if_neg (by simp [h c u rfl])]

/-! ## What follows the blocks -/

theorem cut_word {w : Str} (h : Word w) (s : Str) : cut (w ++ ' ' :: s) = ' ' :: s := by
  have : ∀ w : Str, (∀ c ∈ w, ¬ White c) → cut (w ++ ' ' :: s) = ' ' :: s := by
    intro w
    induction w with
    | nil => intro _; rfl
    | cons c w ih =>
      intro hw
      have hc : (c != ' ') = true := by simpa using not_blank (hw c (by simp))
      have hc' : cut (c :: (w ++ ' ' :: s)) = cut (w ++ ' ' :: s) := by
        unfold cut
        rw [List.dropWhile_cons, if_pos hc]
      rw [List.cons_append, hc']
      exact ih fun x hx => hw x (by simp [hx])
  exact this w h.2

theorem lstrip_blank (s : Str) : lstrip (' ' :: s) = lstrip s := by
  unfold lstrip
  rw [List.dropWhile_cons, if_pos isSpace_blank]

theorem lstrip_word {w : Str} (h : Word w) (s : Str) : lstrip (w ++ s) = w ++ s := by
  cases w with
  | nil => exact absurd rfl h.1
  | cons c w =>
    unfold lstrip
    rw [List.cons_append, List.dropWhile_cons, if_neg (by simp [not_space (h.2 c (by simp))])]

theorem strip_blank (s : Str) : strip (' ' :: s) = strip s := by
  unfold strip
  rw [lstrip_blank]

theorem lstrip_lstrip (s : Str) : lstrip (lstrip s) = lstrip s := by
  unfold lstrip
  obtain ⟨_, _, _, h⟩ := dropWhile_parts isSpace s
  exact dropWhile_none _ _ h

theorem strip_lstrip (s : Str) : strip (lstrip s) = strip s := by
  unfold strip
  rw [lstrip_lstrip]

theorem tagOf_line {w a b : Str} (hw : Word w) (ha : Word a) (hb : Word b) (tag : Str) :
    tagOf (w ++ ' ' :: (a ++ ' ' :: (b ++ ' ' :: tag))) = strip tag := by
  unfold tagOf
  rw [cut_word hw, lstrip_blank, lstrip_word ha, cut_word ha, lstrip_blank, lstrip_word hb, cut_word hb, strip_blank]

theorem cutN_step {w v : Str} (hw : Word w) (hv : Word v) (n : ℕ) (s : Str) :
    cutN (n + 1) (w ++ ' ' :: (v ++ s)) = cutN n (v ++ s) := by
  show cutN n (lstrip (cut _)) = _
  rw [cut_word hw, lstrip_blank, lstrip_word hv]

theorem cutN_last {w : Str} (hw : Word w) (s : Str) : cutN 1 (w ++ ' ' :: s) = lstrip s := by
  show lstrip (cut _) = _
  rw [cut_word hw, lstrip_blank]

/-! ## Trimming -/

theorem strip_trim (s : Str) : Trim s (strip s) := by
  obtain ⟨a, ha, hs, hn⟩ := dropWhile_parts isSpace s
  obtain ⟨b, hb, hsb, hnb⟩ := dropWhile_parts isSpace (lstrip s).reverse
  have hl : lstrip s = strip s ++ b.reverse := by
    have := congrArg List.reverse hb
    rw [List.reverse_reverse, List.reverse_append] at this
    exact this
  refine ⟨a, b.reverse, ?_, fun c hc => (isSpace_iff c).1 (hs c hc), fun c hc => (isSpace_iff c).1 (hsb c (by simpa using hc)),
    ?_, ?_⟩
  · rw [List.append_assoc, ← hl]
    exact ha
  · intro c u h hw
    have hc : lstrip s = c :: (u ++ b.reverse) := by rw [hl, h, List.cons_append]
    have := hn c _ hc
    rw [(isSpace_iff c).2 hw] at this
    exact absurd this (by simp)
  · intro c u h hw
    have hr : ((lstrip s).reverse.dropWhile isSpace) = c :: u.reverse := by
      have : strip s = ((lstrip s).reverse.dropWhile isSpace).reverse := rfl
      rw [h] at this
      have := congrArg List.reverse this
      rw [List.reverse_reverse, List.reverse_append] at this
      exact this.symm
    have := hnb c _ hr
    rw [(isSpace_iff c).2 hw] at this
    exact absurd this (by simp)

/-- A text which is trimmed stays as it is. -/
theorem strip_self {s : Str} (h : Trim s s) : strip s = s := by
  obtain ⟨_, _, _, _, _, h1, h2⟩ := h
  have hl : lstrip s = s := dropWhile_none _ _ fun c u hs => not_space (h1 c u hs)
  unfold strip rstrip
  rw [hl, dropWhile_none, List.reverse_reverse]
  intro c u hs
  refine not_space (h2 c u.reverse ?_)
  have := congrArg List.reverse hs
  rw [List.reverse_reverse, List.reverse_cons] at this
  exact this

theorem dropWhile_pre (p : Char → Bool) : ∀ (a t : Str), (∀ c ∈ a, p c = true) → (a ++ t).dropWhile p = t.dropWhile p
  | [], _, _ => rfl
  | x :: a, t, h => by
    rw [List.cons_append, List.dropWhile_cons, if_pos (h x (by simp))]
    exact dropWhile_pre p a t fun c hc => h c (by simp [hc])

/-- Only one text is the trimmed one. -/
theorem trim_strip {s t : Str} (h : Trim s t) : t = strip s := by
  obtain ⟨a, b, rfl, ha, hb, h1, h2⟩ := h
  have ht : Trim t t := ⟨[], [], by simp, by simp, by simp, h1, h2⟩
  have hbs : ∀ c ∈ b.reverse, isSpace c = true := fun c hc => (isSpace_iff c).2 (hb c (by simpa using hc))
  unfold strip rstrip lstrip
  rw [List.append_assoc, dropWhile_pre _ _ _ fun c hc => (isSpace_iff c).2 (ha c hc)]
  by_cases hn : t = []
  · subst hn
    have : b.dropWhile isSpace = [] := by
      have := dropWhile_pre isSpace b [] fun c hc => (isSpace_iff c).2 (hb c hc)
      simpa using this
    simp [this]
  · have hl : (t ++ b).dropWhile isSpace = t ++ b := by
      refine dropWhile_none _ _ ?_
      intro c u hs
      cases t with
      | nil => exact absurd rfl hn
      | cons x t =>
        injection hs with hx _
        subst hx
        exact not_space (h1 _ _ rfl)
    rw [hl, List.reverse_append, dropWhile_pre _ _ _ hbs]
    exact (strip_self ht).symm.trans (by
      unfold strip rstrip
      rw [show lstrip t = t from dropWhile_none _ _ fun c u hs => not_space (h1 c u hs)])

theorem Word.trim {w : Str} (h : Word w) : Trim w w :=
  ⟨[], [], by simp, by simp, by simp, fun c u hs => h.2 c (by rw [hs]; simp), fun c u hs => h.2 c (by rw [hs]; simp)⟩

/-! ## Lines -/

theorem oneLine_end {s : Str} (h : OneLine s) : ∀ c ∈ s, isEnd c = false := by
  intro c hc
  unfold isEnd
  rw [Bool.or_eq_false_iff]
  constructor
  · simp only [beq_eq_false_iff_ne]
    rintro rfl
    exact h.1 hc
  · simp only [beq_eq_false_iff_ne]
    rintro rfl
    exact h.2 hc

theorem lines_cons : ∀ (l : Str), (∀ c ∈ l, isEnd c = false) → ∀ s, lines (l ++ '\n' :: s) = l :: lines s
  | [], _, s => by
    rw [List.nil_append, lines, if_pos (by decide)]
  | c :: l, h, s => by
    rw [List.cons_append, lines, if_neg (by simp [h c (by simp)]), lines_cons l (fun x hx => h x (by simp [hx]))]
    rfl

theorem lines_text : ∀ (ls : List Str), (∀ l ∈ ls, OneLine l) → lines (ls.flatMap fun l => l ++ ['\n']) = ls
  | [], _ => rfl
  | l :: ls, h => by
    rw [List.flatMap_cons, List.append_assoc, List.singleton_append, lines_cons _ (oneLine_end (h l (by simp))),
      lines_text ls fun x hx => h x (by simp [hx])]

theorem oneLine_append {a b : Str} (ha : OneLine a) (hb : OneLine b) : OneLine (a ++ b) := by
  constructor
  · rw [List.mem_append]
    exact fun h => h.elim ha.1 hb.1
  · rw [List.mem_append]
    exact fun h => h.elim ha.2 hb.2

theorem oneLine_blank {a : Str} (ha : OneLine a) : OneLine (' ' :: a) := by
  constructor
  · rw [List.mem_cons]
    exact fun h => h.elim (by decide) ha.1
  · rw [List.mem_cons]
    exact fun h => h.elim (by decide) ha.2

theorem oneLine_nil : OneLine [] := ⟨by simp, by simp⟩

theorem oneLine_field {a b : Str} (ha : Word a) (hb : OneLine b) : OneLine (a ++ ' ' :: b) :=
  oneLine_append ha.oneLine (oneLine_blank hb)

theorem oneLine_list {α : Type} (f : α → Str) (h : ∀ a, Word (f a)) (l : List α) :
    OneLine (l.flatMap fun a => f a ++ [' ']) := by
  induction l with
  | nil => exact oneLine_nil
  | cons a l ih =>
    rw [List.flatMap_cons]
    exact oneLine_append (oneLine_append (h a).oneLine (oneLine_blank oneLine_nil)) ih

/-! ## Numbers -/

theorem digit_not_white {c : Char} (h : c.isDigit = true) : ¬ White c := by
  have h1 : 48 ≤ c.toNat ∧ c.toNat ≤ 57 := by
    unfold Char.isDigit at h
    rw [Bool.and_eq_true, decide_eq_true_eq, decide_eq_true_eq] at h
    exact ⟨h.1, h.2⟩
  unfold White
  omega

theorem digit_not_minus {c : Char} (h : c.isDigit = true) : c ≠ '-' := by
  rintro rfl
  exact absurd h (by decide)

theorem word_nat (n : ℕ) : Word (showNat n) :=
  ⟨Nat.toDigits_ne_nil, fun c hc => digit_not_white (Nat.isDigit_of_mem_toDigits (by decide) (by decide) hc)⟩

theorem word_int : ∀ i : ℤ, Word (showInt i)
  | .ofNat n => word_nat n
  | .negSucc n => by
    refine ⟨by simp [showInt], ?_⟩
    intro c hc
    rcases List.mem_cons.1 hc with rfl | hc
    · unfold White
      decide
    · exact (word_nat (n + 1)).2 c hc

theorem readNat_show (n : ℕ) : readNat (showNat n) = some n := by
  unfold readNat showNat
  rw [if_pos, Nat.ofDigitChars_ten_toDigits]
  refine ⟨Nat.toDigits_ne_nil, ?_⟩
  rw [List.all_eq_true]
  exact fun c hc => Nat.isDigit_of_mem_toDigits (by decide) (by decide) hc

theorem readInt_nat (n : ℕ) : readInt (showNat n) = some (n : ℤ) := by
  unfold readInt
  rw [if_neg, readNat_show]
  · rfl
  · intro h
    have hm : '-' ∈ Nat.toDigits 10 n := List.mem_of_mem_head? h
    exact digit_not_minus (Nat.isDigit_of_mem_toDigits (by decide) (by decide) hm) rfl

theorem readInt_show : ∀ i : ℤ, readInt (showInt i) = some i
  | .ofNat n => readInt_nat n
  | .negSucc n => by
    have e : showInt (Int.negSucc n) = '-' :: showNat (n + 1) := rfl
    unfold readInt
    rw [e, List.head?_cons, if_pos rfl, List.tail_cons, readNat_show]
    rfl

theorem count_nat (n : ℕ) : count (showNat n) = some n := by
  unfold count
  rw [readInt_nat]
  rfl

end Verif.MeshFile
