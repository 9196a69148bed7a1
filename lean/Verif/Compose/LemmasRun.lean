import Verif.Compose.Lemmas
import Mathlib.Data.List.Nodup

/-! # Helper lemmas: the whole composite function -/

set_option linter.unusedSectionVars false

namespace Verif.Compose

open Verif.Polygon

variable {K : Type*} [Field K] [LinearOrder K] [IsStrictOrderedRing K]

/-- The arrays at the start. -/
def start (pts : List (Pt K)) : State K := ⟨pts.map fun _ => none, pts.map fun _ => false, pts.map fun _ => false⟩

theorem start_sized (pts : List (Pt K)) : Sized (start pts) pts.length := by simp [Sized, start]

theorem start_one (pts : List (Pt K)) {m : ℕ} (hm : m < pts.length) : (start pts).one m = ⟨none, false, false⟩ := by
  simp [start, State.one, hm]

theorem getD_some {α : Type*} {l : List α} {m : ℕ} {p : α} (h : l[m]? = some p) (d : α) : l.getD m d = p := by
  rw [List.getD_eq_getElem?_getD, h]; rfl

theorem lt_of_some {α : Type*} {l : List α} {m : ℕ} {p : α} (h : l[m]? = some p) : m < l.length := by
  by_contra hn
  rw [List.getElem?_eq_none (by omega)] at h
  simp at h

theorem some_of_lt {α : Type*} {l : List α} {m : ℕ} (h : m < l.length) (d : α) : l[m]? = some (l.getD m d) := by
  rw [List.getD_eq_getElem _ _ h, List.getElem?_eq_getElem h]

theorem clipOk_iff {s : Setup K} : s.clipOk = true ↔ ClipFits s := by
  unfold Setup.clipOk ClipFits
  cases s.clip with
  | none => simp
  | some c => simp

theorem allLast_iff {l : List (Region K × Source K)} : allLast l = true ↔ AllLast l := by
  induction l with
  | nil => simp [allLast, AllLast]
  | cons q l ih =>
    obtain ⟨r, src⟩ := q
    unfold allLast
    rw [Bool.and_eq_true, ih]
    constructor
    · rintro ⟨h1, h2⟩ i j src' q' hij hi hj
      cases j with
      | zero => omega
      | succ j =>
        cases i with
        | zero =>
          simp only [List.getElem?_cons_zero, Option.some.injEq, Prod.mk.injEq] at hi
          obtain ⟨rfl, rfl⟩ := hi
          simp only [List.all_eq_true] at h1
          have := h1 q' (List.mem_of_getElem? (by simpa using hj))
          revert this
          cases q'.1 <;> simp
        | succ i => exact h2 i j src' q' (by omega) (by simpa using hi) (by simpa using hj)
    · intro h
      refine ⟨?_, fun i j src' q' hij hi hj => h (i + 1) (j + 1) src' q' (by omega) (by simpa using hi) (by simpa using hj)⟩
      cases r with
      | skip => rfl
      | polygon p => rfl
      | all =>
        simp only [List.all_eq_true]
        intro q' hq'
        obtain ⟨j, hj⟩ := List.getElem?_of_mem hq'
        rw [h 0 (j + 1) src q' (by omega) rfl (by simpa using hj)]

theorem clipTo_spec {b : K × K} (hle : b.1 ≤ b.2) (u : K) :
    (u ≤ b.1 → clipTo b u = b.1) ∧ (b.2 ≤ u → clipTo b u = b.2) ∧ (b.1 ≤ u → u ≤ b.2 → clipTo b u = u) := by
  unfold clipTo
  simp only
  refine ⟨fun h => ?_, fun h => ?_, fun h h' => ?_⟩
  · rw [if_neg (not_lt.2 h)]
    split_ifs with h3
    · rfl
    · exact le_antisymm (not_lt.1 h3) hle
  · rw [if_neg]
    split_ifs with h3
    · exact not_lt.2 h
    · have h4 : u ≤ b.1 := not_lt.1 h3
      exact not_lt.2 (le_trans h h4)
  · by_cases h3 : b.1 < u
    · rw [if_pos h3]
      split_ifs with h4
      · rfl
      · exact le_antisymm (not_lt.1 h4) h'
    · rw [if_neg h3]
      have h5 : u = b.1 := le_antisymm (not_lt.1 h3) h
      split_ifs with h4
      · exact h5.symm
      · rw [h5]; exact le_antisymm (not_lt.1 h4) hle

theorem clipped_clipAt {s : Setup K} (hc : ClipFits s) {i : ℕ} (hi : i < s.pairs.length) (u : K) : Clipped s i u (clipAt s i u) := by
  unfold Clipped clipAt
  cases h : s.clip with
  | none => exact Or.inl ⟨rfl, rfl⟩
  | some c =>
    right
    obtain ⟨h1, h2⟩ := hc c h
    have hl : i < c.length := by omega
    have hg : c[i]? = some (c.getD i (0, 0)) := some_of_lt hl _
    exact ⟨c, (c.getD i (0, 0)).1, (c.getD i (0, 0)).2, rfl, hg, clipTo_spec (h2 _ (List.mem_of_getElem? hg)) u⟩

theorem clipped_unique {s : Setup K} {i : ℕ} {u v v' : K} (h : Clipped s i u v) (h' : Clipped s i u v') : v = v' := by
  rcases h with ⟨h1, h2⟩ | ⟨c, lo, hi, h1, h2, a, b, e⟩
  · rcases h' with ⟨_, h4⟩ | ⟨c, lo, hi, h3, _⟩
    · rw [h2, h4]
    · rw [h1] at h3; simp at h3
  · rcases h' with ⟨h3, _⟩ | ⟨c', lo', hi', h3, h4, a', b', e'⟩
    · rw [h1] at h3; simp at h3
    · rw [h1, Option.some.injEq] at h3
      subst h3
      rw [h2, Option.some.injEq, Prod.mk.injEq] at h4
      obtain ⟨rfl, rfl⟩ := h4
      by_cases x : u ≤ lo
      · rw [a x, a' x]
      · by_cases y : hi ≤ u
        · rw [b y, b' y]
        · rw [e (not_le.1 x).le (not_le.1 y).le, e' (not_le.1 x).le (not_le.1 y).le]

theorem says_unique {query : Query K} {s : Setup K} {p : Pt K} {src : Source K} {v v' : Option K} (h : Says query s p src v) (h' : Says query s p src v') : v = v' := by
  rw [says_iff] at h h'
  rw [h] at h'
  exact Option.some.inj h'

theorem served_unique {sq : K → K} {query : Query K} {s : Setup K} {p : Pt K} {v v' : K} (h : Served sq query s p v) (h' : Served sq query s p v') : v = v' := by
  obtain ⟨i, src, u, ⟨r, e, hh, hb⟩, hs, hc⟩ := h
  obtain ⟨i', src', u', ⟨r', e', hh', hb'⟩, hs', hc'⟩ := h'
  have hi : i = i' := by
    rcases Nat.lt_trichotomy i i' with hlt | heq | hgt
    · have := says_unique (hb' i hlt r src e hh) hs
      simp at this
    · exact heq
    · have := says_unique (hb i' hgt r' src' e' hh') hs'
      simp at this
  subst hi
  rw [e, Option.some.injEq, Prod.mk.injEq] at e'
  obtain ⟨rfl, rfl⟩ := e'
  have := says_unique hs hs'
  rw [Option.some.injEq] at this
  subst this
  exact clipped_unique hc hc'

theorem served_turn {sq : K → K} {query : Query K} {s : Setup K} (hc : ClipFits s) {p : Pt K} {k : ℕ} {src : Source K} {u : K}
    (ht : TurnIn sq query s p s.pairs k src) (hs : Says query s p src (some u)) : Served sq query s p (clipAt s (0 + k) u) := by
  have hk : k < s.pairs.length := lt_of_some ht.choose_spec.1
  rw [Nat.zero_add]
  exact ⟨k, src, u, ht, hs, clipped_clipAt hc hk u⟩

/-- The main loop. -/
theorem loop_spec {sq : K → K} {query : Query K} {s : Setup K} (hc : ClipFits s) (pts : List (Pt K)) :
    (∃ st, loop sq query s pts 0 s.pairs (start pts) = some st ∧ Sized st pts.length ∧ ∀ (m : ℕ) (p : Pt K), pts[m]? = some p →
      Quiet sq query s p ∧
      ((∃ v, st.val.getD m none = some v ∧ st.isSet.getD m true = true ∧ Served sq query s p v) ∨
        (st.val.getD m none = none ∧ st.isSet.getD m true = false ∧ ∀ v, ¬ Served sq query s p v)) ∧
      (st.ever.getD m false = true ↔ FirstMissing sq query s p)) ∨
    (loop sq query s pts 0 s.pairs (start pts) = none ∧ ∃ p ∈ pts, ¬ Quiet sq query s p) := by
  rcases loop_one (sq := sq) (query := query) (s := s) s.pairs 0 (start_sized pts) with ⟨st, e, hs, h⟩ | ⟨e, m, hm, h⟩
  · left
    refine ⟨st, e, hs, fun m p hp => ?_⟩
    have hm := lt_of_some hp
    have := h m hm
    rw [start_one pts hm, getD_some hp] at this
    have spec := loopOne_spec (sq := sq) (query := query) (s := s) (p := p) s.pairs 0 false
    rw [this] at spec
    obtain ⟨a, b, c, d⟩ := spec
    refine ⟨a, ?_, ?_⟩
    · cases hset : (st.one m).isSet with
      | true =>
        obtain ⟨k, src, u, h1, h2, h3⟩ := b hset
        exact Or.inl ⟨_, h3, hset, served_turn hc h1 h2⟩
      | false =>
        obtain ⟨h1, h2⟩ := c hset
        refine Or.inr ⟨h1, hset, ?_⟩
        rintro v ⟨i, src, u, h3, h4, _⟩
        exact h2 i src u h3 h4
    · refine Iff.trans d ?_
      simp only [Bool.false_eq_true, false_or]
      exact Iff.rfl
  · right
    refine ⟨e, pts.getD m ⟨0, 0⟩, List.mem_of_getElem? (some_of_lt hm _), fun hq => ?_⟩
    rw [start_one pts hm] at h
    have spec := loopOne_spec (sq := sq) (query := query) (s := s) (p := pts.getD m ⟨0, 0⟩) s.pairs 0 false
    rw [h] at spec
    obtain ⟨k, src, h1, h2⟩ := spec
    obtain ⟨h3, h4⟩ := hq k src h1
    rcases h2 with h2 | ⟨h2, h5⟩
    · exact h3 h2
    · exact h4 h2 h5

theorem mem_chosen {sq : K → K} {s : Setup K} {pts : List (Pt K)} {ever : List Bool} {m : ℕ} :
    m ∈ chosen sq s pts ever ↔ m < pts.length ∧ ever.getD m false = true ∧ InGaps sq s (pts.getD m ⟨0, 0⟩) := by
  unfold chosen InGaps
  cases s.gaps with
  | no => simp
  | all => simp
  | within ps =>
    simp only [List.mem_flatMap]
    constructor
    · rintro ⟨poly, hp, h⟩
      rw [mem_inside, List.mem_filter, List.mem_range] at h
      exact ⟨h.1.1, h.1.2, poly, hp, by rw [isInside_eq, h.2]⟩
    · rintro ⟨h1, h2, poly, hp, h⟩
      refine ⟨poly, hp, ?_⟩
      rw [mem_inside, List.mem_filter, List.mem_range]
      rw [isInside_eq, Option.some.injEq] at h
      exact ⟨⟨h1, h2⟩, h⟩

/-- Filling when gaps are to be filled and there are some. -/
theorem fill_some {sq : K → K} {query : Query K} {s : Setup K} {pts : List (Pt K)} {st : State K} (hg : s.gaps ≠ .no) (hev : st.ever.any id = true) :
    fill sq query s pts st =
      (let redo := chosen sq s pts st.ever
      let ip := (List.range pts.length).filter fun i => !redo.contains i
      if ip.any fun i => (st.val.getD i none).isNone then none
      else if ip.length < s.k then none
      else
        let data := ip.map fun i => (⟨s.place (pts.getD i ⟨0, 0⟩), (st.val.getD i none).getD 0⟩ : Datum K)
        some ⟨assign st.val redo fun i => some (nearest query data s.k .average huge huge (s.place (pts.getD i ⟨0, 0⟩))),
          assign st.isSet redo fun _ => true, st.ever⟩) := by
  unfold fill
  cases h : s.gaps with
  | no => exact absurd h hg
  | all => simp only; rw [if_pos hev]
  | within ps => simp only; rw [if_pos hev]

theorem fill_none {sq : K → K} {query : Query K} {s : Setup K} {pts : List (Pt K)} {st : State K} (h : s.gaps = .no ∨ ¬ st.ever.any id = true) :
    fill sq query s pts st = some st := by
  unfold fill
  cases hg : s.gaps with
  | no => rfl
  | all => simp only; rw [if_neg (h.resolve_left (by rw [hg]; simp))]
  | within ps => simp only; rw [if_neg (h.resolve_left (by rw [hg]; simp))]

/-- The conditions under which the function succeeds. -/
structure Fine (sq : K → K) (query : Query K) (s : Setup K) (pts : List (Pt K)) : Prop where
  clip : ClipFits s
  pairs : s.pairs ≠ []
  last : AllLast s.pairs
  points : pts ≠ []
  quiet : ∀ p ∈ pts, Quiet sq query s p
  served : ∀ p ∈ pts, ¬ Lacking sq query s p → ∃ v, Served sq query s p v
  enough : s.gaps ≠ .no → (∃ p ∈ pts, FirstMissing sq query s p) →
    ∃ idx : List ℕ, idx.Nodup ∧ s.k ≤ idx.length ∧ ∀ m ∈ idx, ∃ p, pts[m]? = some p ∧ ¬ Lacking sq query s p

/-- What the function gives when it succeeds. -/
def Gives (sq : K → K) (query : Query K) (s : Setup K) (pts : List (Pt K)) (out : List (Option K)) : Prop :=
  out.length = pts.length ∧ ∃ (idx : List ℕ) (data : List (Datum K)),
    idx.Pairwise (· < ·) ∧ data.length = idx.length ∧
    (∀ m, m ∈ idx ↔ ∃ p, pts[m]? = some p ∧ ¬ Lacking sq query s p) ∧
    (∀ (j m : ℕ), idx[j]? = some m → ∃ p v, pts[m]? = some p ∧ out[m]? = some (some v) ∧ data[j]? = some ⟨s.place p, v⟩) ∧
    ∀ (m : ℕ) (p : Pt K), pts[m]? = some p →
      (¬ Lacking sq query s p → ∃ v, out[m]? = some (some v) ∧ Served sq query s p v) ∧
      (Lacking sq query s p → s.k ≤ data.length ∧ out[m]? = some (some (nearest query data s.k .average huge huge (s.place p))))

open Classical in
theorem main {sq : K → K} {query : Query K} (s : Setup K) (pts : List (Pt K)) :
    (∃ out, setting sq query s pts = some out ∧ Gives sq query s pts out ∧ Fine sq query s pts) ∨ (setting sq query s pts = none ∧ ¬ Fine sq query s pts) := by
  unfold setting composite
  by_cases h1 : s.clipOk = true
  swap
  · rw [if_neg h1]
    exact Or.inr ⟨rfl, fun h => h1 (clipOk_iff.2 h.clip)⟩
  rw [if_pos h1]
  have hc := clipOk_iff.1 h1
  by_cases h2 : s.pairs.isEmpty = true
  · rw [if_pos h2]
    exact Or.inr ⟨rfl, fun h => h.pairs (List.isEmpty_iff.1 h2)⟩
  rw [if_neg h2]
  by_cases h3 : allLast s.pairs = true
  swap
  · rw [if_neg h3]
    exact Or.inr ⟨rfl, fun h => h3 (allLast_iff.2 h.last)⟩
  rw [if_pos h3]
  rcases loop_spec (sq := sq) (query := query) hc pts with ⟨st, e, hs, h⟩ | ⟨e, p, hp, hq⟩
  swap
  · refine Or.inr ⟨?_, fun h => hq (h.quiet p hp)⟩
    unfold start at e
    rw [e]; rfl
  obtain ⟨z1, z2, z3⟩ := hs
  have e' := e
  unfold start at e'
  rw [e', Option.bind_some]
  -- the points in terms of the state
  have hlack : ∀ (m : ℕ) (p : Pt K), pts[m]? = some p → (m ∈ chosen sq s pts st.ever ↔ Lacking sq query s p) := by
    intro m p hp
    rw [mem_chosen, getD_some hp]
    unfold Lacking
    rw [← (h m p hp).2.2]
    exact ⟨fun x => x.2, fun x => ⟨lt_of_some hp, x⟩⟩
  have hmemip : ∀ m, m ∈ ((List.range pts.length).filter fun i => !(chosen sq s pts st.ever).contains i) ↔ ∃ p, pts[m]? = some p ∧ ¬ Lacking sq query s p := by
    intro m
    rw [List.mem_filter, List.mem_range]
    simp only [List.contains_eq_mem, Bool.not_eq_true', decide_eq_false_iff_not]
    constructor
    · rintro ⟨hm, hn⟩
      exact ⟨_, some_of_lt hm ⟨0, 0⟩, fun hl => hn ((hlack m _ (some_of_lt hm _)).2 hl)⟩
    · rintro ⟨p, hp, hn⟩
      exact ⟨lt_of_some hp, fun hl => hn ((hlack m p hp).1 hl)⟩
  have hever : st.ever.any id = true ↔ ∃ p ∈ pts, FirstMissing sq query s p := by
    rw [List.any_eq_true]
    constructor
    · rintro ⟨x, hx, hx'⟩
      obtain ⟨m, hm⟩ := List.getElem?_of_mem hx
      have hm' : m < pts.length := by rw [← z3]; exact lt_of_some hm
      refine ⟨_, List.mem_of_getElem? (some_of_lt hm' ⟨0, 0⟩), (h m _ (some_of_lt hm' _)).2.2.1 ?_⟩
      rw [getD_some hm]; exact hx'
    · rintro ⟨p, hp, hf⟩
      obtain ⟨m, hm⟩ := List.getElem?_of_mem hp
      have := (h m p hm).2.2.2 hf
      have hl : m < st.ever.length := by rw [z3]; exact lt_of_some hm
      exact ⟨_, List.mem_of_getElem? (some_of_lt hl false), this⟩
  have hall : ∀ {l : List Bool}, l.length = pts.length → (l.all id = true ↔ ∀ m < pts.length, l.getD m true = true) := by
    intro l hl
    rw [List.all_eq_true]
    constructor
    · intro ha m hm
      have := some_of_lt (l := l) (m := m) (by omega) true
      exact ha _ (List.mem_of_getElem? this)
    · intro ha x hx
      obtain ⟨m, hm⟩ := List.getElem?_of_mem hx
      have := ha m (by rw [← hl]; exact lt_of_some hm)
      rw [getD_some hm] at this
      exact this
  have hnil : ∀ {l : List Bool}, l.length = pts.length → (l ≠ [] ↔ pts ≠ []) := by
    intro l hl
    rw [← List.length_pos_iff, ← List.length_pos_iff, hl]
  have hquiet : ∀ p ∈ pts, Quiet sq query s p := by
    intro p hp
    obtain ⟨m, hm⟩ := List.getElem?_of_mem hp
    exact (h m p hm).1
  by_cases hd : s.gaps ≠ .no ∧ st.ever.any id = true
  · -- gaps filled
    rw [fill_some hd.1 hd.2]
    simp only
    set redo := chosen sq s pts st.ever with hredo
    set ip := (List.range pts.length).filter fun i => !redo.contains i with hip
    by_cases hnan : (ip.any fun i => (st.val.getD i none).isNone) = true
    · rw [if_pos hnan]
      refine Or.inr ⟨rfl, fun hf => ?_⟩
      obtain ⟨m, hm, hv⟩ := List.any_eq_true.1 hnan
      obtain ⟨p, hp, hl⟩ := (hmemip m).1 hm
      obtain ⟨v, hsv⟩ := hf.served p (List.mem_of_getElem? hp) hl
      rcases (h m p hp).2.1 with ⟨w, hw, _⟩ | ⟨_, _, hno⟩
      · rw [hw] at hv; simp at hv
      · exact hno v hsv
    rw [if_neg hnan]
    have hval : ∀ m ∈ ip, ∃ p v, pts[m]? = some p ∧ st.val.getD m none = some v ∧ st.isSet.getD m true = true ∧ Served sq query s p v := by
      intro m hm
      obtain ⟨p, hp, hl⟩ := (hmemip m).1 hm
      rcases (h m p hp).2.1 with ⟨w, hw⟩ | ⟨hn, _, _⟩
      · exact ⟨p, w, hp, hw⟩
      · exfalso
        apply hnan
        rw [List.any_eq_true]
        exact ⟨m, hm, by rw [hn]; rfl⟩
    have hsorted : ip.Pairwise (· < ·) := List.Pairwise.filter _ List.pairwise_lt_range
    by_cases hk : ip.length < s.k
    · rw [if_pos hk]
      refine Or.inr ⟨rfl, fun hf => ?_⟩
      obtain ⟨idx, hn, hlen, hmem⟩ := hf.enough hd.1 (hever.1 hd.2)
      have : idx.length ≤ ip.length := List.Subperm.length_le (List.Nodup.subperm hn fun m hm => (hmemip m).2 (hmem m hm))
      omega
    rw [if_neg hk]
    set data := ip.map fun i => (⟨s.place (pts.getD i ⟨0, 0⟩), (st.val.getD i none).getD 0⟩ : Datum K) with hdata
    rw [Option.bind_some]
    simp only
    have hset : (assign st.isSet redo fun _ => true).all id = true := by
      rw [hall (by rw [assign_length, z2])]
      intro m hm
      rw [assign_getD _ _ _ (by rw [z2]; exact hm)]
      by_cases hr : m ∈ redo
      · rw [if_pos hr]
      · rw [if_neg hr]
        have hmi : m ∈ ip := (hmemip m).2 ⟨_, some_of_lt hm ⟨0, 0⟩, fun hl => hr ((hlack m _ (some_of_lt hm _)).2 hl)⟩
        exact (hval m hmi).choose_spec.choose_spec.2.2.1
    by_cases hp0 : pts = []
    · rw [if_neg (fun x => ((hnil (by rw [assign_length, z2])).1 x.1) hp0)]
      exact Or.inr ⟨rfl, fun hf => hf.points hp0⟩
    rw [if_pos ⟨(hnil (by rw [assign_length, z2])).2 hp0, hset⟩]
    left
    have hout : ∀ m < pts.length, (assign st.val redo fun i => some (nearest query data s.k .average huge huge (s.place (pts.getD i ⟨0, 0⟩))))[m]? =
        some (if m ∈ redo then some (nearest query data s.k .average huge huge (s.place (pts.getD m ⟨0, 0⟩))) else st.val.getD m none) := by
      intro m hm
      rw [some_of_lt (by rw [assign_length, z1]; exact hm) none, assign_getD _ _ _ (by rw [z1]; exact hm)]
    have hnotredo : ∀ m ∈ ip, m ∉ redo := by
      intro m hm hr
      obtain ⟨p, hp, hl⟩ := (hmemip m).1 hm
      exact hl ((hlack m p hp).1 hr)
    refine ⟨_, rfl, ⟨by rw [assign_length, z1], ip, data, hsorted, by rw [hdata, List.length_map], hmemip, ?_, ?_⟩, ⟨hc, by simpa using h2, allLast_iff.1 h3, hp0, hquiet, ?_, ?_⟩⟩
    · intro j m hj
      have hm := List.mem_of_getElem? hj
      obtain ⟨p, v, hp, hv, _, _⟩ := hval m hm
      refine ⟨p, v, hp, ?_, ?_⟩
      · rw [hout m (lt_of_some hp), if_neg (hnotredo m hm), hv]
      · rw [hdata, List.getElem?_map, hj, Option.map_some, getD_some hp, hv]; rfl
    · intro m p hp
      constructor
      · intro hl
        have hm := (hmemip m).2 ⟨p, hp, hl⟩
        obtain ⟨p', v, hp', hv, _, hsv⟩ := hval m hm
        rw [hp, Option.some.injEq] at hp'
        subst hp'
        exact ⟨v, by rw [hout m (lt_of_some hp), if_neg (hnotredo m hm), hv], hsv⟩
      · intro hl
        refine ⟨by rw [hdata, List.length_map]; omega, ?_⟩
        rw [hout m (lt_of_some hp), if_pos ((hlack m p hp).2 hl), getD_some hp]
    · intro p hp hl
      obtain ⟨m, hm⟩ := List.getElem?_of_mem hp
      obtain ⟨p', v, hp', _, _, hsv⟩ := hval m ((hmemip m).2 ⟨p, hm, hl⟩)
      rw [hm, Option.some.injEq] at hp'
      subst hp'
      exact ⟨v, hsv⟩
    · intro _ _
      exact ⟨ip, hsorted.imp (fun h => Nat.ne_of_lt h), by omega, fun m hm => (hmemip m).1 hm⟩
  · -- nothing to fill
    have hno : s.gaps = .no ∨ ¬ st.ever.any id = true := by
      by_cases hg : s.gaps = .no
      · exact Or.inl hg
      · exact Or.inr fun hx => hd ⟨hg, hx⟩
    rw [fill_none hno, Option.bind_some]
    have hnl : ∀ p ∈ pts, ¬ Lacking sq query s p := by
      rintro p hp ⟨hf, hi⟩
      rcases hno with hg | hx
      · unfold InGaps at hi; rw [hg] at hi; exact hi
      · exact hx (hever.2 ⟨p, hp, hf⟩)
    by_cases hok : st.isSet ≠ [] ∧ st.isSet.all id = true
    · rw [if_pos hok]
      have hval : ∀ (m : ℕ) (p : Pt K), pts[m]? = some p → ∃ v, st.val.getD m none = some v ∧ Served sq query s p v := by
        intro m p hp
        have := (hall z2).1 hok.2 m (lt_of_some hp)
        rcases (h m p hp).2.1 with ⟨w, hw, _, hsv⟩ | ⟨_, hn, _⟩
        · exact ⟨w, hw, hsv⟩
        · rw [hn] at this; simp at this
      have hout : ∀ m < pts.length, st.val[m]? = some (st.val.getD m none) := fun m hm => some_of_lt (by rw [z1]; exact hm) _
      have hmemip' : ∀ m, m ∈ List.range pts.length ↔ ∃ p, pts[m]? = some p ∧ ¬ Lacking sq query s p := by
        intro m
        rw [List.mem_range]
        exact ⟨fun hm => ⟨_, some_of_lt hm ⟨0, 0⟩, hnl _ (List.mem_of_getElem? (some_of_lt hm _))⟩, fun ⟨p, hp, _⟩ => lt_of_some hp⟩
      left
      refine ⟨_, rfl, ⟨z1, List.range pts.length, (List.range pts.length).map fun i => (⟨s.place (pts.getD i ⟨0, 0⟩), (st.val.getD i none).getD 0⟩ : Datum K),
        List.pairwise_lt_range, by rw [List.length_map], hmemip', ?_, ?_⟩, ⟨hc, by simpa using h2, allLast_iff.1 h3, (hnil z2).1 hok.1, hquiet, ?_, ?_⟩⟩
      · intro j m hj
        obtain ⟨p, hp, _⟩ := (hmemip' m).1 (List.mem_of_getElem? hj)
        obtain ⟨v, hv, _⟩ := hval m p hp
        refine ⟨p, v, hp, by rw [hout m (lt_of_some hp), hv], ?_⟩
        rw [List.getElem?_map, hj, Option.map_some, getD_some hp, hv]; rfl
      · intro m p hp
        refine ⟨fun _ => ?_, fun hl => absurd hl (hnl p (List.mem_of_getElem? hp))⟩
        obtain ⟨v, hv, hsv⟩ := hval m p hp
        exact ⟨v, by rw [hout m (lt_of_some hp), hv], hsv⟩
      · intro p hp _
        obtain ⟨m, hm⟩ := List.getElem?_of_mem hp
        obtain ⟨v, _, hsv⟩ := hval m p hm
        exact ⟨v, hsv⟩
      · intro hg hf
        exact absurd ⟨hg, hever.2 hf⟩ hd
    · rw [if_neg hok]
      refine Or.inr ⟨rfl, fun hf => hok ⟨(hnil z2).2 hf.points, (hall z2).2 fun m hm => ?_⟩⟩
      have hp := some_of_lt hm (⟨0, 0⟩ : Pt K)
      obtain ⟨v, hsv⟩ := hf.served _ (List.mem_of_getElem? hp) (hnl _ (List.mem_of_getElem? hp))
      rcases (h m _ hp).2.1 with ⟨_, _, hx, _⟩ | ⟨_, _, hn⟩
      · exact hx
      · exact absurd hsv (hn v)

end Verif.Compose
