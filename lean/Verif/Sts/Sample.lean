import Verif.Sts.Props
import Verif.Polygon.PropsTwo
import Mathlib.Tactic.IntervalCases

/-! # Samples for C99 -/

namespace Verif.Sts

open Verif.Polygon (Pt OnSeg IsSqrt isSqrt_real)
open Verif.FileFn (File Fn Opts Var Cell relTo Kept Covered origin)

/-! ## Rational numbers -/

/-- Square roots of squares of rational numbers. -/
def root (q : ℚ) : ℚ := (Nat.sqrt q.num.natAbs : ℚ) / (Nat.sqrt q.den : ℚ)

/-- Three gauges of a square of 100 m, and one that is not on it; two times. -/
def qFile : File ℚ :=
  ⟨.sts, 50, some [0, 10], ⟨1000, 2000⟩, some [⟨0, 0⟩, ⟨100, 0⟩, ⟨70, 70⟩, ⟨100, 100⟩], [], fun s =>
    if s = "stage" then some (.two [[0, 0, 0, 0], [10, 20, 99, 40]]) else if s = "elevation" then some (.one [-1, -2, -3, -4]) else none⟩

/-- The square. -/
def qPoly : List (Pt ℚ) := [⟨1000, 2000⟩, ⟨1100, 2000⟩, ⟨1100, 2100⟩, ⟨1000, 2100⟩]

/-- Points: a quarter along the first side, a vertex, half-way along the second side, on a side without gauges, inside. -/
def qPts : List (Pt ℚ) := [⟨1025, 2000⟩, ⟨1100, 2000⟩, ⟨1100, 2050⟩, ⟨1050, 2100⟩, ⟨1050, 2050⟩]

/-- Values of a call. -/
def got (r : Except Err (Fn ℚ)) (t : ℚ) (p : ℕ) : Except Err (List (Cell ℚ)) :=
  match r with
  | .error e => .error e
  | .ok F => match F.call t (some p) with
    | .error _ => .ok []
    | .ok (_, q) => .ok q

/-- The function of the file. -/
def qF (names : List String) (poly : Option (List (Pt ℚ))) : Except Err (Fn ℚ) := openGauges root qFile names none { points := some qPts } poly

example : (List.range 5).map (got (qF ["stage"] (some qPoly)) 10) =
    [.ok [.num (25 / 2)], .ok [.num 20], .ok [.num 30], .ok [.num 0], .ok [.num 0]] := by decide +kernel
example : got (qF ["stage"] (some qPoly)) 5 0 = .ok [.num (25 / 4)] := by decide +kernel

/-- The polygon begun elsewhere: the stretch passes its first vertex. -/
example : got (qF ["stage"] (some [⟨1100, 2100⟩, ⟨1000, 2100⟩, ⟨1000, 2000⟩, ⟨1100, 2000⟩])) 10 2 = .ok [.num 30] := by decide +kernel

/-- Two gauges that are no neighbours on the polygon. -/
example : got (openGauges root { qFile with coords := some [⟨0, 0⟩, ⟨100, 100⟩, ⟨50, 50⟩, ⟨30, 30⟩] } ["stage"] none { points := some qPts }
    (some qPoly)) 10 0 = .error .segments := by decide +kernel

/-- **C99.** At points that are not on a side with gauges at both ends the function returns 0 without any warning: on the rest of the polygon and
inside it, here with values of at least 10 at all gauges. -/
theorem C99_silent_zero : got (qF ["stage"] (some qPoly)) 10 3 = .ok [.num 0] ∧ got (qF ["stage"] (some qPoly)) 10 4 = .ok [.num 0] ∧
    qFile.vars "stage" = some (.two [[0, 0, 0, 0], [10, 20, 99, 40]]) := by
  refine ⟨?_, ?_, rfl⟩ <;> decide +kernel

/-- **C99.** The tolerance for gauges is relative to their coordinates: 5 m apart and 100 km from the corner of the file, the first of two gauges
gives the values for the vertex at the exact position of the second one. The vertex at the second gauge, with value 7, gets the value 1 of the first. -/
theorem C99_wrong_gauge :
    got (openGauges root { qFile with corner := ⟨0, 0⟩, coords := some [⟨100000, 0⟩, ⟨100005, 0⟩, ⟨100500, 0⟩], vars := fun _ => some (.two [[1, 7, 3], [1, 7, 3]]) }
      ["stage"] none { points := some [⟨100005, 0⟩] } (some [⟨100005, 0⟩, ⟨100500, 0⟩, ⟨100500, 500⟩])) 10 0 = .ok [.num 1] := by
  decide +kernel

/-- **C99.** A quantity that does not depend on time cannot be read with a boundary polygon, and nothing can be read without one. -/
theorem C99_no_time : got (qF ["elevation"] (some qPoly)) 10 0 = .error .shape ∧ got (qF ["stage"] none) 10 0 = .error .noPolygon := by
  refine ⟨?_, ?_⟩ <;> decide +kernel

/-- **C99.** A polygon with a gauge at each of its vertices is refused. -/
example : got (openGauges root { qFile with coords := some [⟨0, 0⟩, ⟨100, 0⟩, ⟨0, 100⟩, ⟨100, 100⟩] } ["stage"] none { points := some qPts } (some qPoly)) 10 0 =
    .error .segments := by decide +kernel

/-! ## Real numbers, where all square roots exist -/

/-- The gauges. -/
def rX : List (Pt ℝ) := [⟨0, 0⟩, ⟨100, 0⟩, ⟨70, 70⟩, ⟨100, 100⟩]

/-- The same file. -/
noncomputable def rFile : File ℝ := ⟨.sts, 50, some [0, 10], ⟨1000, 2000⟩, some rX, [], fun s =>
    if s = "stage" then some (.two [[0, 0, 0, 0], [10, 20, 99, 40]]) else none⟩

/-- The same square. -/
def rPoly : List (Pt ℝ) := [⟨1000, 2000⟩, ⟨1100, 2000⟩, ⟨1100, 2100⟩, ⟨1000, 2100⟩]

theorem rHolds : Holds rFile ["stage"] rX [0, 10] [.two [[0, 0, 0, 0], [10, 20, 99, 40]]] where
  coords := rfl
  time := rfl
  increasing := by
    intro i j a b hij ha hb
    have hj : j < 2 := (List.getElem?_eq_some_iff.1 hb).1
    interval_cases j
    · omega
    · interval_cases i
      simp at ha hb
      subst ha; subst hb; norm_num
  some_names := by simp
  vars := by simp [rFile]
  shaped := by
    intro v hv
    simp only [List.mem_cons, List.not_mem_nil, or_false] at hv
    subst hv
    exact ⟨_, rfl, rfl, by simp [rX]⟩

theorem rAt (b : Pt ℝ) (j : ℕ) : At rFile rX b j ↔ ∃ g, rX[j]? = some g ∧ |g.x - (b.x - 1000)| ≤ (1 + |b.x - 1000|) / 10 ^ 4 ∧
    |g.y - (b.y - 2000)| ≤ (1 + |b.y - 2000|) / 10 ^ 4 := Iff.rfl

theorem rGives : Gives rFile rX rPoly 0 0 ∧ Gives rFile rX rPoly 1 1 ∧ Gives rFile rX rPoly 2 3 := by
  refine ⟨⟨_, rfl, (rAt _ _).2 ⟨_, rfl, by norm_num, by norm_num⟩, by simp⟩, ⟨_, rfl, (rAt _ _).2 ⟨_, rfl, by norm_num, by norm_num⟩, ?_⟩,
    ⟨_, rfl, (rAt _ _).2 ⟨_, rfl, by norm_num, by norm_num⟩, ?_⟩⟩
  · intro k hk
    rw [rAt]
    rintro ⟨g, hg, h1, h2⟩
    interval_cases k
    simp [rX] at hg
    subst hg
    norm_num [abs_le] at h1
  · intro k hk
    rw [rAt]
    rintro ⟨g, hg, h1, h2⟩
    interval_cases k <;> simp [rX] at hg <;> subst hg <;> first | (exfalso; revert h1; norm_num [abs_le]; done) | (exfalso; revert h2; norm_num [abs_le]; done)

theorem rNone : ¬ Gauged rFile rX rPoly 3 := by
  rintro ⟨j, b, hb, hat, -⟩
  rw [rAt] at hat
  obtain ⟨g, hg, h1, h2⟩ := hat
  simp [rPoly] at hb
  subst hb
  have hj : j < 4 := (List.getElem?_eq_some_iff.1 hg).1
  interval_cases j <;> simp [rX] at hg <;> subst hg <;> first | (exfalso; revert h1; norm_num [abs_le]; done) | (exfalso; revert h2; norm_num [abs_le]; done)

theorem rLt {i : ℕ} (h : Gauged rFile rX rPoly i) : i < 3 := by
  obtain ⟨j, hj⟩ := id h
  have : i < 4 := (gives_lt hj).1
  by_contra hc
  have : i = 3 := by omega
  subst this
  exact rNone h

theorem rStretch : OneStretch rFile rX rPoly := by
  refine ⟨2, ⟨⟨_, rGives.2.2⟩, rNone⟩, ?_⟩
  rintro i ⟨hi, hi'⟩
  have := rLt hi
  interval_cases i
  · exact absurd ⟨_, rGives.2.1⟩ hi'
  · exact absurd ⟨_, rGives.2.2⟩ hi'
  · rfl

/-- The hypotheses of `C99_value`: the file, the stretch, a side with a point a quarter along it, off the other side. -/
example : Holds rFile ["stage"] rX [0, 10] [.two [[0, 0, 0, 0], [10, 20, 99, 40]]] ∧ OneStretch rFile rX rPoly ∧
    (∃ i k, i ≠ k ∧ Gauged rFile rX rPoly i ∧ Gauged rFile rX rPoly k) ∧ Side rFile rX rPoly 0 ⟨1000, 2000⟩ ⟨1100, 2000⟩ ∧
    (∀ k a b, Side rFile rX rPoly k a b → k ≠ 0 → Off (⟨1025, 2000⟩ : Pt ℝ) a b) ∧ IsSqrt Real.sqrt := by
  refine ⟨rHolds, rStretch, ⟨0, 1, by omega, ⟨_, rGives.1⟩, ⟨_, rGives.2.1⟩⟩, ⟨⟨_, rGives.1⟩, ⟨_, rGives.2.1⟩, rfl, rfl⟩, ?_, isSqrt_real⟩
  rintro k a b ⟨h1, h2, h3, h4⟩ hk
  have := rLt h1
  interval_cases k
  · exact absurd rfl hk
  · simp [rPoly, after] at h3 h4
    subst h3; subst h4
    rintro q ⟨t, t0, t1, hx, hy⟩
    rw [hx, hy]
    norm_num
    nlinarith [mul_self_nonneg t]
  · exact absurd h2 rNone

end Verif.Sts
