import Verif.Compose.LemmasRun

/-!
# C92: a quantity set from several sources

At every point the value comes from the first pair whose region holds there and whose source has a number there, moved into the
range given for that pair; points that lacked a value from their first choice and lie where gaps are to be filled get the
value of the nearest other points.  The theorems are about `setting`: the function is built and called for a list of points.
-/

set_option linter.unusedSectionVars false

namespace Verif.Compose

open Verif.Polygon

variable {K : Type*} [Field K] [LinearOrder K] [IsStrictOrderedRing K]

/-- **C92.** Without filling, each point gets a number, and it is the one of the first pair that has one there. -/
theorem C92_value (sq : K → K) (query : Query K) (s : Setup K) (pts : List (Pt K)) (out : List (Option K))
    (hg : s.gaps = .no) (h : setting sq query s pts = some out) :
    out.length = pts.length ∧ ∀ (m : ℕ) (p : Pt K), pts[m]? = some p → ∃ v, out[m]? = some (some v) ∧ Served sq query s p v := by
  rcases main (sq := sq) (query := query) s pts with ⟨o, e, ⟨hl, idx, data, _, _, _, _, hall⟩, _⟩ | ⟨e, _⟩
  · rw [h, Option.some.injEq] at e
    subst e
    refine ⟨hl, fun m p hp => (hall m p hp).1 ?_⟩
    rintro ⟨_, hi⟩
    unfold InGaps at hi
    rw [hg] at hi
    exact hi
  · rw [h] at e; simp at e

/-- **C92.** There is at most one such number. -/
theorem C92_unique (sq : K → K) (query : Query K) (s : Setup K) (p : Pt K) (v v' : K) (h : Served sq query s p v) (h' : Served sq query s p v') : v = v' :=
  served_unique h h'

/-- **C92.** The function works exactly when: the ranges fit, there are pairs and points, nothing but `None` follows 'All', no source
raises an exception where its turn comes (or lacks a number while that is not allowed to fall through), every point not to be filled has a
number, and where filling happens at least `k` points have one. -/
theorem C92_succeeds (sq : K → K) (query : Query K) (s : Setup K) (pts : List (Pt K)) :
    (∃ out, setting sq query s pts = some out) ↔
      ClipFits s ∧ s.pairs ≠ [] ∧ AllLast s.pairs ∧ pts ≠ [] ∧ (∀ p ∈ pts, Quiet sq query s p) ∧
      (∀ p ∈ pts, ¬ Lacking sq query s p → ∃ v, Served sq query s p v) ∧
      (s.gaps ≠ .no → (∃ p ∈ pts, FirstMissing sq query s p) →
        ∃ idx : List ℕ, idx.Nodup ∧ s.k ≤ idx.length ∧ ∀ m ∈ idx, ∃ p, pts[m]? = some p ∧ ¬ Lacking sq query s p) := by
  rcases main (sq := sq) (query := query) s pts with ⟨o, e, _, hf⟩ | ⟨e, hf⟩
  · exact ⟨fun _ => ⟨hf.clip, hf.pairs, hf.last, hf.points, hf.quiet, hf.served, hf.enough⟩, fun _ => ⟨o, e⟩⟩
  · constructor
    · rintro ⟨o, h⟩
      rw [h] at e; simp at e
    · rintro ⟨a, b, c, d, f, g, i⟩
      exact absurd ⟨a, b, c, d, f, g, i⟩ hf

/-- **C92.** With filling: the other points (in order, `idx`) have the number of their first source that has one; each point to be filled
gets the weighted value of the `k` nearest among them, of which there are enough. -/
theorem C92_gaps (sq : K → K) (query : Query K) (s : Setup K) (pts : List (Pt K)) (out : List (Option K))
    (h : setting sq query s pts = some out) :
    out.length = pts.length ∧ ∃ (idx : List ℕ) (data : List (Datum K)),
      idx.Pairwise (· < ·) ∧ data.length = idx.length ∧
      (∀ m, m ∈ idx ↔ ∃ p, pts[m]? = some p ∧ ¬ Lacking sq query s p) ∧
      (∀ (j m : ℕ), idx[j]? = some m → ∃ p v, pts[m]? = some p ∧ out[m]? = some (some v) ∧ data[j]? = some ⟨s.place p, v⟩) ∧
      ∀ (m : ℕ) (p : Pt K), pts[m]? = some p →
        (¬ Lacking sq query s p → ∃ v, out[m]? = some (some v) ∧ Served sq query s p v) ∧
        (Lacking sq query s p → s.k ≤ data.length ∧ out[m]? = some (some (nearest query data s.k .average huge huge (s.place p)))) := by
  rcases main (sq := sq) (query := query) s pts with ⟨o, e, hgv, _⟩ | ⟨e, _⟩
  · rw [h, Option.some.injEq] at e
    subst e
    exact hgv
  · rw [h] at e; simp at e

/-- **C92.** Without filling the value at a point does not depend on the other points. -/
theorem C92_pointwise (sq : K → K) (query : Query K) (s : Setup K) (pts pts' : List (Pt K)) (out out' : List (Option K))
    (hg : s.gaps = .no) (h : setting sq query s pts = some out) (h' : setting sq query s pts' = some out')
    (m m' : ℕ) (p : Pt K) (hp : pts[m]? = some p) (hp' : pts'[m']? = some p) : out[m]? = out'[m']? := by
  obtain ⟨v, e, hv⟩ := (C92_value sq query s pts out hg h).2 m p hp
  obtain ⟨v', e', hv'⟩ := (C92_value sq query s pts' out' hg h').2 m' p hp'
  rw [e, e', C92_unique sq query s p v v' hv hv']

/-- **C92.** With ranges, each value lies in the range of the pair that set it. -/
theorem C92_clipped (sq : K → K) (query : Query K) (s : Setup K) (pts : List (Pt K)) (out : List (Option K)) (c : List (K × K))
    (hg : s.gaps = .no) (hc : s.clip = some c) (h : setting sq query s pts = some out) (m : ℕ) (p : Pt K) (hp : pts[m]? = some p) :
    ∃ v i src lo hi, out[m]? = some (some v) ∧ Turn sq query s p i src ∧ c[i]? = some (lo, hi) ∧ lo ≤ v ∧ v ≤ hi := by
  obtain ⟨v, e, i, src, u, ht, hs, hcl⟩ := (C92_value sq query s pts out hg h).2 m p hp
  have hf : ClipFits s := ((C92_succeeds sq query s pts).1 ⟨out, h⟩).1
  rcases hcl with ⟨hn, _⟩ | ⟨c', lo, hi, h1, h2, a, b, d⟩
  · rw [hn] at hc; simp at hc
  · rw [hc, Option.some.injEq] at h1
    subst h1
    have hle : lo ≤ hi := (hf c hc).2 _ (List.mem_of_getElem? h2)
    refine ⟨v, i, src, lo, hi, e, ht, h2, ?_⟩
    rcases le_total u lo with hu | hu
    · rw [a hu]; exact ⟨le_refl _, hle⟩
    · rcases le_total hi u with hu' | hu'
      · rw [b hu']; exact ⟨hle, le_refl _⟩
      · rw [d hu hu']; exact ⟨hu, hu'⟩

end Verif.Compose
