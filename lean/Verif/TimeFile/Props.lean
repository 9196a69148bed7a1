import Verif.TimeFile.Model
import Verif.FileFn.PropsDomain

set_option linter.unusedSectionVars false

/-! # C115: time series from text to functions of time -/

namespace Verif.TimeFile

open Verif.FileFn Verif.Interp

variable {S K : Type} [Field K] [LinearOrder K] [IsStrictOrderedRing K]

/-- What a line says: a time and values. -/
def said (R : Reader S K) (line : List S) : Option (K × List K) := do
  let a ← line[0]?
  let b ← line[1]?
  let t ← R.time a
  let v ← (R.words b).mapM R.num
  pure (t, v)

/-- A text that can be converted: `c` is what its lines say and `d` the number of values in the first one. -/
structure Text (R : Reader S K) (names : List String) (lines : List (List S)) (c : List (K × List K)) (d : ℕ) : Prop where
  said : lines.mapM (said R) = some c
  two : ∃ first, lines.head? = some first ∧ first.length = 2
  number : ∃ e, c.head? = some e ∧ e.2.length = d
  most : ∀ e ∈ c, e.2.length ≤ d
  order : StrictlyIncreasing (c.map Prod.fst)
  names : ((List.range d).map (nameOf names)).Nodup ∧ "time" ∉ (List.range d).map (nameOf names)

def pad (d : ℕ) (e : K × List K) : K × List K := (e.1, e.2 ++ List.replicate (d - e.2.length) 0)

theorem row_said (R : Reader S K) (d : ℕ) (line : List S) : row R d line = (said R line).bind fun e => if e.2.length ≤ d then some (pad d e) else none := by
  unfold row said
  cases h0 : line[0]? with
  | none => rfl
  | some a =>
    cases h1 : line[1]? with
    | none => rfl
    | some b =>
      simp only [Option.bind_eq_bind, Option.bind_some]
      cases R.time a with
      | none => rfl
      | some t =>
        cases (R.words b).mapM R.num with
        | none => rfl
        | some v => rfl

theorem rows_said (R : Reader S K) (d : ℕ) (lines : List (List S)) (r : List (K × List K)) :
    lines.mapM (row R d) = some r ↔ ∃ c, lines.mapM (said R) = some c ∧ (∀ e ∈ c, e.2.length ≤ d) ∧ r = c.map (pad d) := by
  induction lines generalizing r with
  | nil => simp [eq_comm]
  | cons x lines ih =>
    rw [List.mapM_cons, List.mapM_cons, row_said]
    cases hs : said R x with
    | none => simp
    | some e =>
      simp only [Option.bind_eq_bind, Option.bind_some]
      by_cases he : e.2.length ≤ d
      · rw [if_pos he, Option.bind_some]
        cases hm : lines.mapM (row R d) with
        | none =>
          constructor
          · intro h; cases h
          · rintro ⟨c, h1, h2, h3⟩
            cases hc : lines.mapM (said R) with
            | none => rw [hc] at h1; cases h1
            | some c' =>
              rw [hc] at h1
              cases h1
              have := (ih (c'.map (pad d))).mpr ⟨c', hc, fun e he => h2 e (List.mem_cons_of_mem _ he), rfl⟩
              rw [hm] at this
              cases this
        | some r' =>
          obtain ⟨c', h1, h2, h3⟩ := (ih r').mp hm
          rw [h1]
          simp only [Option.bind_some, Option.pure_def, Option.some.injEq]
          constructor
          · rintro rfl
            refine ⟨e :: c', rfl, ?_, by rw [h3]; rfl⟩
            intro g hg
            rcases List.mem_cons.mp hg with rfl | hg
            · exact he
            · exact h2 g hg
          · rintro ⟨c, rfl, -, rfl⟩
            rw [h3]; rfl
      · rw [if_neg he]
        constructor
        · intro h; cases h
        · rintro ⟨c, h1, h2, h3⟩
          cases hc : lines.mapM (said R) with
          | none => rw [hc] at h1; cases h1
          | some c' =>
            rw [hc] at h1
            cases h1
            exact absurd (h2 e List.mem_cons_self) he

theorem strictly_pairwise (T : List K) : StrictlyIncreasing T ↔ T.Pairwise (· < ·) := by
  rw [List.pairwise_iff_getElem]
  constructor
  · intro h i j hi hj hij
    exact h i j _ _ hij (List.getElem?_eq_getElem hi) (List.getElem?_eq_getElem hj)
  · intro h i j a b hij ha hb
    obtain ⟨h1, rfl⟩ := List.getElem?_eq_some_iff.1 ha
    obtain ⟨h2, rfl⟩ := List.getElem?_eq_some_iff.1 hb
    exact h i j h1 h2 hij

theorem increasing_iff (T : List K) : increasing T = true ↔ StrictlyIncreasing T := by
  rw [strictly_pairwise, ← List.isChain_iff_pairwise]
  induction T with
  | nil => simp [increasing]
  | cons a T ih =>
    cases T with
    | nil => simp [increasing]
    | cons b T => rw [increasing, Bool.and_eq_true, ih, decide_eq_true_eq, List.isChain_cons_cons, sub_pos]

/-- The file that is made. -/
def fileOf (names : List String) (c : List (K × List K)) (d : ℕ) (start : K) : File K :=
  { ext := .tms, starttime := start, time := some (((c.map (pad d))).map fun r => r.1 - start), corner := ⟨0, 0⟩, coords := none, tris := []
    vars := fun n => ((List.range d).find? fun i => nameOf names i = n).map fun i => .one ((c.map (pad d)).map fun r => r.2.getD i 0) }

theorem shifted (c : List (K × List K)) (d : ℕ) (start : K) :
    StrictlyIncreasing ((c.map (pad d)).map fun r => r.1 - start) ↔ StrictlyIncreasing (c.map Prod.fst) := by
  rw [strictly_pairwise, strictly_pairwise, List.map_map, List.pairwise_map, List.pairwise_map]
  simp [pad]

theorem convert_iff (R : Reader S K) (names : List String) (lines : List (List S)) (f : File K) :
    convert R names lines = some f ↔
      ∃ c d e, Text R names lines c d ∧ c.head? = some e ∧ f = fileOf names c d e.1 := by
  cases lines with
  | nil =>
    constructor
    · intro h; cases h
    · rintro ⟨c, d, e, ht, -⟩
      obtain ⟨x, hx, -⟩ := ht.two
      cases hx
  | cons first lines =>
    have hsaid : ∀ c e, (first :: lines).mapM (said R) = some c → c.head? = some e → said R first = some e := by
      intro c e h1 h2
      rw [List.mapM_cons] at h1
      cases hs : said R first with
      | none => rw [hs] at h1; cases h1
      | some e' =>
        rw [hs] at h1
        simp only [Option.bind_eq_bind, Option.bind_some] at h1
        cases hm : lines.mapM (said R) with
        | none => rw [hm] at h1; cases h1
        | some c' =>
          rw [hm] at h1
          cases h1
          cases h2
          rfl
    have hhead : ∀ c, (first :: lines).mapM (said R) = some c → ∃ e, c.head? = some e := by
      intro c h1
      rw [List.mapM_cons] at h1
      cases hs : said R first with
      | none => rw [hs] at h1; cases h1
      | some e' =>
        rw [hs] at h1
        simp only [Option.bind_eq_bind, Option.bind_some] at h1
        cases hm : lines.mapM (said R) with
        | none => rw [hm] at h1; cases h1
        | some c' =>
          rw [hm] at h1
          cases h1
          exact ⟨e', rfl⟩
    rw [convert]
    by_cases h2 : first.length = 2
    · rw [if_neg (by omega)]
      have h20 := List.getElem?_eq_getElem (l := first) (i := 0) (by omega)
      have h21 := List.getElem?_eq_getElem (l := first) (i := 1) (by omega)
      rw [h20, h21]
      simp only
      cases ht : R.time first[0] with
      | none =>
        constructor
        · intro h; cases h
        · rintro ⟨c, d, e, hT, he, -⟩
          have := hsaid c e hT.said he
          simp [said, h20, h21, ht] at this
      | some start =>
        cases hv : (R.words first[1]).mapM R.num with
        | none =>
          constructor
          · intro h; cases h
          · rintro ⟨c, d, e, hT, he, -⟩
            have := hsaid c e hT.said he
            simp [said, h20, h21, hv] at this
        | some q =>
          have hs1 : said R first = some (start, q) := by simp [said, h20, h21, ht, hv]
          simp only
          cases hr : (first :: lines).mapM (row R q.length) with
          | none =>
            constructor
            · intro h; cases h
            · rintro ⟨c, d, e, hT, he, -⟩
              have hse := hsaid c e hT.said he
              rw [hs1] at hse
              cases hse
              obtain ⟨e', he', hd⟩ := hT.number
              rw [he] at he'
              cases he'
              have := (rows_said R q.length (first :: lines) (c.map (pad q.length))).mpr ⟨c, hT.said, by rw [show q.length = d from hd]; exact hT.most, rfl⟩
              rw [hr] at this
              cases this
          | some rows =>
            obtain ⟨c, hc, hm, rfl⟩ := (rows_said R q.length (first :: lines) rows).mp hr
            obtain ⟨e, he⟩ := hhead c hc
            have hse := hsaid c e hc he
            rw [hs1] at hse
            cases hse
            simp only
            by_cases hinc : increasing ((c.map (pad q.length)).map fun r => r.1 - start) = true
            · rw [if_neg (by simpa using hinc)]
              by_cases hn : ("time" :: (List.range q.length).map (nameOf names)).Nodup
              · rw [if_neg (by simpa using hn)]
                constructor
                · intro h
                  cases h
                  rw [List.nodup_cons] at hn
                  refine ⟨c, q.length, (start, q), ⟨hc, ⟨first, rfl, h2⟩, ⟨_, he, rfl⟩, hm, ?_, hn.2, hn.1⟩, he, rfl⟩
                  rwa [increasing_iff, shifted] at hinc
                · rintro ⟨c', d, e', hT, he', rfl⟩
                  have e1 := hT.said
                  rw [hc] at e1
                  cases e1
                  rw [he] at he'
                  cases he'
                  obtain ⟨e'', h3, h4⟩ := hT.number
                  rw [he] at h3
                  cases h3
                  subst h4
                  rfl
              · rw [if_pos (by simpa using hn)]
                constructor
                · intro h; cases h
                · rintro ⟨c', d, e', hT, he', rfl⟩
                  have e1 := hT.said
                  rw [hc] at e1
                  cases e1
                  obtain ⟨e'', h3, h4⟩ := hT.number
                  rw [he] at h3
                  cases h3
                  subst h4
                  exact absurd (List.nodup_cons.mpr ⟨hT.names.2, hT.names.1⟩) hn
            · rw [if_pos (by simpa using hinc)]
              constructor
              · intro h; cases h
              · rintro ⟨c', d, e', hT, he', rfl⟩
                have e1 := hT.said
                rw [hc] at e1
                cases e1
                exact absurd (by rw [increasing_iff, shifted]; exact hT.order) hinc
    · rw [if_pos h2]
      constructor
      · intro h; cases h
      · rintro ⟨c, d, e, hT, -⟩
        obtain ⟨x, hx, h3⟩ := hT.two
        cases hx
        exact absurd h3 h2

/-- **C115.** Which texts are converted: the first line has two fields, every line has a time and numbers, none more than the first one, times
increase and names differ. -/
theorem C115_taken (R : Reader S K) (names : List String) (lines : List (List S)) :
    (∃ f, convert R names lines = some f) ↔ ∃ c d, Text R names lines c d := by
  constructor
  · rintro ⟨f, hf⟩
    obtain ⟨c, d, e, hT, -⟩ := (convert_iff R names lines f).mp hf
    exact ⟨c, d, hT⟩
  · rintro ⟨c, d, hT⟩
    obtain ⟨e, he, -⟩ := hT.number
    exact ⟨_, (convert_iff R names lines _).mpr ⟨c, d, e, hT, he, rfl⟩⟩

theorem find_name (names : List String) (d j : ℕ) (hj : j < d) (hn : ((List.range d).map (nameOf names)).Nodup) :
    (List.range d).find? (fun i => decide (nameOf names i = nameOf names j)) = some j := by
  cases hf : (List.range d).find? (fun i => decide (nameOf names i = nameOf names j)) with
  | none =>
    rw [List.find?_eq_none] at hf
    exact absurd (by simp) (hf j (List.mem_range.mpr hj))
  | some i =>
    have h1 := List.find?_some hf
    have h2 := List.mem_of_find?_eq_some hf
    rw [List.nodup_map_iff_inj_on List.nodup_range] at hn
    rw [hn i h2 j (List.mem_range.mpr hj) (by simpa using h1)]

/-- **C115.** The file: the start is the time of the first line, times are counted from it, and each variable holds one value of every line, or zero
where a line has fewer values than the first one. -/
theorem C115_file {R : Reader S K} {names : List String} {lines : List (List S)} {f : File K} (h : convert R names lines = some f)
    {c : List (K × List K)} {d : ℕ} (hT : Text R names lines c d) :
    f.ext = .tms ∧ f.coords = none ∧ (∃ e, c.head? = some e ∧ f.starttime = e.1) ∧
    (∃ T, f.time = some T ∧ T.length = c.length ∧ ∀ (k : ℕ) e, c[k]? = some e → ∃ t, T[k]? = some t ∧ t + f.starttime = e.1) ∧
    ∀ j < d, ∃ l, f.vars (nameOf names j) = some (.one l) ∧ l.length = c.length ∧
      ∀ (k : ℕ) e, c[k]? = some e → l[k]? = some (e.2.getD j 0) := by
  obtain ⟨c', d', e, hT', he, rfl⟩ := (convert_iff R names lines f).mp h
  have e1 := hT.said
  rw [hT'.said] at e1
  cases e1
  obtain ⟨x, h1, h2⟩ := hT.number
  obtain ⟨y, h3, h4⟩ := hT'.number
  rw [h1] at h3
  cases h3
  rw [h2] at h4
  subst h4
  refine ⟨rfl, rfl, ⟨e, he, rfl⟩, ⟨_, rfl, by simp, ?_⟩, ?_⟩
  · intro k g hg
    refine ⟨g.1 - e.1, ?_, by show g.1 - e.1 + e.1 = g.1; ring⟩
    simp [hg, pad]
  · intro j hj
    refine ⟨(c.map (pad d)).map fun r => r.2.getD j 0, ?_, by simp, ?_⟩
    · show ((List.range d).find? fun i => nameOf names i = nameOf names j).map _ = _
      rw [find_name names d j hj hT.names.1]
      rfl
    · intro k g hg
      simp only [List.getElem?_map, hg, Option.map_some, pad]
      congr 1
      simp only [List.getD_eq_getElem?_getD]
      by_cases hl : j < g.2.length
      · rw [List.getElem?_append_left hl]
      · rw [List.getElem?_append_right (by omega), List.getElem?_eq_none (show g.2.length ≤ j by omega)]
        by_cases h5 : j - g.2.length < d - g.2.length
        · rw [List.getElem?_replicate_of_lt h5]; rfl
        · omega

/-- **C115.** Put together with reading: the function that `file_function` makes from the converted text gives, at every time from the first line to
the last one, values on the broken lines through the times and values of the lines, whatever was called before; other times are refused. -/
theorem C115_series {R : Reader S K} {names : List String} {lines : List (List S)} {f : File K} (h : convert R names lines = some f)
    {c : List (K × List K)} {d : ℕ} (hT : Text R names lines c d) (hd : 0 < d) (sq : K → K)
    (mk : List (Polygon.Pt K) → List (ℕ × ℕ × ℕ) → Option (Mesh K)) :
    ∃ F, open' sq mk f ((List.range d).map (nameOf names)) none {} = .ok F ∧ ∀ (hist : List (K × Option ℕ)) (p : Option ℕ) (t : K),
      ((∀ e ∈ c, t < e.1 - f.starttime) → (F.after hist).call t p = .error .early) ∧
      ((∀ e ∈ c, e.1 - f.starttime < t) → (F.after hist).call t p = .error .late) ∧
      ((∃ e ∈ c, e.1 - f.starttime ≤ t) → (∃ e ∈ c, t ≤ e.1 - f.starttime) →
        ∃ q : List K, ((F.after hist).call t p).map Prod.snd = .ok (q.map .num) ∧ q.length = d ∧
          ∀ j < d, ∃ z, q[j]? = some z ∧ LineThrough (c.map Prod.fst) (c.map fun e => e.2.getD j 0) (t + f.starttime) z) := by
  obtain ⟨g1, g2, -, ⟨T, g4, g5, g6⟩, g7⟩ := C115_file h hT
  have hne : c ≠ [] := by
    rintro rfl
    obtain ⟨x, hx, -⟩ := hT.number
    cases hx
  have hpos := List.length_pos_iff.mpr hne
  have hTg : ∀ k (hk : k < c.length), T[k]? = some (c[k].1 - f.starttime) := by
    intro k hk
    obtain ⟨t, h1, h2⟩ := g6 k c[k] (List.getElem?_eq_getElem hk)
    rw [h1, ← h2]
    congr 1
    ring
  have hTD : ∀ k (hk : k < c.length), T.getD k 0 + f.starttime = c[k].1 := by
    intro k hk
    rw [List.getD_eq_getElem?_getD, hTg k hk, Option.getD_some]
    ring
  have hinc : StrictlyIncreasing T := by
    intro i j a b hij ha hb
    have hi := (List.getElem?_eq_some_iff.1 ha).1
    have hj := (List.getElem?_eq_some_iff.1 hb).1
    rw [g5] at hi hj
    rw [hTg i hi] at ha
    rw [hTg j hj] at hb
    cases ha
    cases hb
    have := hT.order i j c[i].1 c[j].1 hij (by simp [hi]) (by simp [hj])
    linarith
  have hvals : ∃ vals, ((List.range d).map (nameOf names)).mapM f.vars = some vals ∧ ∀ v ∈ vals, ∃ l, v = .one l ∧ T.length ≤ l.length := by
    have : ∀ js : List ℕ, (∀ j ∈ js, j < d) → ∃ vals, (js.map (nameOf names)).mapM f.vars = some vals ∧
        ∀ v ∈ vals, ∃ l, v = .one l ∧ T.length ≤ l.length := by
      intro js
      induction js with
      | nil => intro _; exact ⟨[], rfl, by simp⟩
      | cons j js ih =>
        intro hj
        obtain ⟨vals, h1, h2⟩ := ih fun i hi => hj i (List.mem_cons_of_mem _ hi)
        obtain ⟨l, h3, h4, -⟩ := g7 j (hj j List.mem_cons_self)
        refine ⟨.one l :: vals, ?_, ?_⟩
        · rw [List.map_cons, List.mapM_cons, h3, h1]; rfl
        · intro v hv
          rcases List.mem_cons.mp hv with rfl | hv
          · exact ⟨l, rfl, by omega⟩
          · exact h2 v hv
    exact this _ fun j hj => List.mem_range.mp hj
  obtain ⟨vals, hv, hone⟩ := hvals
  have hk : FileFn.Kept T f.starttime 1 none (List.range c.length) := by
    refine ⟨List.pairwise_lt_range, fun i => ?_⟩
    rw [List.mem_range]
    constructor
    · intro hi; exact ⟨_, hTg i hi, one_dvd _, by simp⟩
    · rintro ⟨t, ht, -⟩
      have := (List.getElem?_eq_some_iff.1 ht).1
      omega
  obtain ⟨F, hF, -, hcall⟩ := C97_series (mk := mk) g1 g2 g4 hinc (by simp; omega) hv hone sq none {} rfl rfl (List.range c.length) hk
    (by simp; exact hne)
  refine ⟨F, hF, fun hist p t => ?_⟩
  obtain ⟨k1, k2, k3⟩ := hcall hist p t
  have ho : origin f none = f.starttime := rfl
  rw [ho] at k1 k2 k3
  refine ⟨fun hh => k1 fun i hi => ?_, fun hh => k2 fun i hi => ?_, ?_⟩
  · rw [List.mem_range] at hi
    rw [hTD i hi]
    have := hh c[i] (List.getElem_mem hi)
    linarith
  · rw [List.mem_range] at hi
    rw [hTD i hi]
    have := hh c[i] (List.getElem_mem hi)
    linarith
  · rintro ⟨e, he, h1⟩ ⟨e', he', h2⟩
    obtain ⟨i, hi, rfl⟩ := List.getElem_of_mem he
    obtain ⟨i', hi', rfl⟩ := List.getElem_of_mem he'
    obtain ⟨q, q1, q2, q3⟩ := k3 ⟨⟨i, List.mem_range.mpr hi, by rw [hTD i hi]; linarith⟩, ⟨i', List.mem_range.mpr hi', by rw [hTD i' hi']; linarith⟩⟩
    refine ⟨q, q1, by simpa using q2, fun j hj => ?_⟩
    obtain ⟨l, z, l1, l2, l3⟩ := q3 j (nameOf names j) (by simp [hj])
    obtain ⟨l', m1, m2, m3⟩ := g7 j hj
    rw [m1] at l1
    cases l1
    refine ⟨z, l2, ?_⟩
    have e1 : absTimes T f.starttime (List.range c.length) = c.map Prod.fst := by
      unfold absTimes
      apply List.ext_getElem
      · simp
      · intro k h3 h4
        have hk : k < c.length := by simpa using h4
        simp only [List.getElem_map, List.getElem_range]
        exact hTD k hk
    have e2 : ((List.range c.length).map fun i => l.getD i 0) = c.map fun e => e.2.getD j 0 := by
      apply List.ext_getElem
      · simp
      · intro k h3 h4
        have hk : k < c.length := by simpa using h4
        have := m3 k c[k] (List.getElem?_eq_getElem hk)
        simp only [List.getElem_map, List.getElem_range]
        rw [List.getD_eq_getElem?_getD, this]
        rfl
    rw [e1, e2] at l3
    exact l3

end Verif.TimeFile
