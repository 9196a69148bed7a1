import Verif.FileFn.PropsDomain
import Verif.Polygon.PropsTwo

/-! # Samples for C97 -/

namespace Verif.FileFn

open Verif.Polygon (Pt isSqrt_real IsSqrt isInsidePolygon)
open Verif.Interp (sqMesh Mesh Fits)
open Verif.Quad (Tri)

/-- A file of rational numbers: two triangles of a unit square, three times from absolute time 100. -/
def qFile : File ℚ :=
  ⟨.sww, 100, some [0, 10, 20], ⟨1000, 2000⟩, some [⟨0, 0⟩, ⟨1, 0⟩, ⟨1, 1⟩, ⟨0, 1⟩], [(0, 1, 3), (1, 2, 3)], fun s =>
    if s = "stage" then some (.two [[0, 0, 0, 0], [10, 20, 30, 20], [20, 20, 20, 20]]) else if s = "elevation" then some (.one [-1, -2, -3, -2]) else none⟩

/-- The interpolator of the square. -/
def qMk : List (Pt ℚ) → List (ℕ × ℕ × ℕ) → Option (Mesh ℚ) := fun _ _ => some sqMesh

/-- Values of a call as a list, if there is no error. -/
def got (r : Except Err (Fn ℚ × Option (Clock ℚ))) (t : ℚ) (p : Option ℕ) : Except Err (List (Cell ℚ)) :=
  match r with
  | .error e => .error e
  | .ok (F, _) => (F.call t p).map Prod.snd

/-- The file's mesh and values meet the requirements. -/
theorem qReads : Reads qMk qFile ["stage", "elevation"] [⟨0, 0⟩, ⟨1, 0⟩, ⟨1, 1⟩, ⟨0, 1⟩] [0, 10, 20]
    [.two [[0, 0, 0, 0], [10, 20, 30, 20], [20, 20, 20, 20]], .one [-1, -2, -3, -2]] sqMesh Verif.Interp.sqTris where
  ext := rfl
  coords := rfl
  time := rfl
  increasing := by
    intro i j a b hij ha hb
    have hj : j < 3 := (List.getElem?_eq_some_iff.1 hb).1
    interval_cases j <;> interval_cases i <;> simp at ha hb <;> subst ha <;> subst hb <;> norm_num
  some_names := by simp
  vars := rfl
  shaped := by
    intro v hv
    simp only [List.mem_cons, List.not_mem_nil, or_false] at hv
    rcases hv with rfl | rfl
    · exact ⟨rfl, by simp⟩
    · rfl
  make := rfl
  fits := by
    refine ⟨Verif.Interp.sqMesh_fits.tree, ?_, Verif.Interp.sqMesh_fits.proper⟩
    intro t ht
    simp only [Verif.Interp.sqTris, List.mem_cons, List.not_mem_nil, or_false] at ht
    rcases ht with rfl | rfl
    · exact ⟨0, 1, 3, rfl, by decide, by decide, by decide, rfl, rfl, rfl⟩
    · exact ⟨1, 2, 3, rfl, by decide, by decide, by decide, rfl, rfl, rfl⟩
  nodes := rfl
  tris := rfl

/-- The function of the file at two points, one on the square and one off it. -/
def qF (d : Option (Clock ℚ)) (o : Opts ℚ) : Except Err (Fn ℚ × Option (Clock ℚ)) := fileFunction id qMk qFile d (some ["stage", "elevation"]) o

/-- Points: one third of the way into the first triangle; outside. -/
def qPts : List (Pt ℚ) := [⟨1000 + 1 / 4, 2000 + 1 / 4⟩, ⟨1500, 2000⟩]

/-- Five seconds after the start of the file: half of the value 15 of the second result; infinity off the mesh. -/
example : got (qF none { points := some qPts }) 5 (some 0) = .ok [.num (15 / 2), .num (-3 / 2)] := by decide +kernel
example : got (qF none { points := some qPts }) 5 (some 1) = .ok [.inf, .inf] := by decide +kernel
example : got (qF none { points := some qPts }) 21 (some 0) = .error .late := by decide +kernel
example : got (qF none { points := some qPts }) (-1) (some 0) = .error .early := by decide +kernel
example : got (qF none { points := some qPts, limit := some 115 }) 11 (some 0) = .error .late := by decide +kernel

/-- A domain that starts at absolute time 105 counts from there. -/
example : got (qF (some ⟨105, 0, false⟩) { points := some qPts }) 0 (some 0) = .ok [.num (15 / 2), .num (-3 / 2)] := by decide +kernel

/-- The times used with a limit and thinning. -/
example : Kept ([0, 10, 20] : List ℚ) 100 2 (some 150) [0, 2] where
  sorted := by simp
  mem := by
    intro i
    constructor
    · intro h
      simp only [List.mem_cons, List.not_mem_nil, or_false] at h
      rcases h with rfl | rfl
      · exact ⟨0, rfl, by omega, by intro l hl; cases hl; norm_num⟩
      · exact ⟨20, rfl, by omega, by intro l hl; cases hl; norm_num⟩
    · rintro ⟨t, ht, hd, -⟩
      have : i < 3 := (List.getElem?_eq_some_iff.1 ht).1
      interval_cases i <;> simp at hd ⊢

/-- The time of the domain after its boundary was made, and what is imposed at the first edge. -/
def imposed (r : Except Err (Fn ℚ × Clock ℚ)) : Option (ℚ × Except Err (List (Cell ℚ))) :=
  match r with
  | .error _ => none
  | .ok (F, c) => some (c.now, (evaluate F c 0 none).map Prod.snd)

/-- A domain starting at time zero with a file starting at zero: the boundary imposes the values of the model time. -/
example : imposed (match fileBoundary id qMk { qFile with starttime := 0 } ⟨0, 0, false⟩ ["stage"] qPts 1 none with
    | .error e => .error e
    | .ok (F, c) => .ok (F, { c with rel := 3 })) = some (3, .ok [.num (9 / 2)]) := by decide +kernel

/-- **C97.** A boundary read from a file in a domain that does not start at time zero takes the values of another time. The domain starts with the
file, at 100 s, for which the stage of the file is 0; but the boundary asks for the values of absolute time 200 s and raises the exception for times
after the end of the file. With a domain starting at 3 s and a file starting at 0 s, which has 4.5 at 3 s, the value 9 of 6 s is imposed at 3 s. -/
theorem C97_boundary_late :
    imposed (fileBoundary id qMk qFile ⟨100, 0, false⟩ ["stage"] qPts 1 none) = some (100, .error .late) ∧
    got (qF none { points := some qPts }) (100 - qFile.starttime) (some 0) = .ok [.num 0, .num (-3 / 2)] ∧
    imposed (fileBoundary id qMk { qFile with starttime := 0 } ⟨3, 0, false⟩ ["stage"] qPts 1 none) = some (3, .ok [.num 9]) ∧
    got (fileFunction id qMk { qFile with starttime := 0 } none (some ["stage"]) { points := some qPts }) 3 (some 0) = .ok [.num (9 / 2)] := by
  refine ⟨?_, ?_, ?_, ?_⟩ <;> decide +kernel

/-- **C97.** Two functions for one domain, of files that start at 100 s and 110 s: opening the second moves the start of the domain to 110 s, but
the times of the first still count from 100 s, so that at the new start (relative time 0) it gives the value of 100 s (0) and not that of 110 s
(15). -/
theorem C97_two_files :
    (match fileFunction id qMk qFile (some ⟨0, 0, false⟩) (some ["stage"]) { points := some qPts } with
      | .ok (_, some c) => match fileFunction id qMk { qFile with starttime := 110 } (some c) (some ["stage"]) { points := some qPts } with
        | .ok (_, some c) => c.start
        | _ => 0
      | _ => 0) = 110 ∧
    got (fileFunction id qMk qFile (some ⟨0, 0, false⟩) (some ["stage"]) { points := some qPts }) 0 (some 0) = .ok [.num 0] ∧
    got (fileFunction id qMk qFile (some ⟨110, 0, false⟩) (some ["stage"]) { points := some qPts }) 0 (some 0) = .ok [.num 15] := by
  refine ⟨?_, ?_, ?_⟩ <;> decide +kernel

/-- **C97.** With absolute times (`use_relative_time=False`) a time limit of 115 s, well after the start at 100 s, leaves no time at all: absolute
times are compared with a limit made relative. -/
theorem C97_limit_absolute :
    got (qF none { points := some qPts, relative := false, limit := some 115 }) 105 (some 0) = .error .noTime ∧
    got (qF none { points := some qPts, relative := false }) 105 (some 0) = .ok [.num (15 / 2), .num (-3 / 2)] ∧
    got (qF none { points := some qPts, limit := some 115 }) 5 (some 0) = .ok [.num (15 / 2), .num (-3 / 2)] := by
  refine ⟨?_, ?_, ?_⟩ <;> decide +kernel

/-- A file of series. -/
def tFile : File ℚ := ⟨.tms, 100, some [0, 10, 20], ⟨0, 0⟩, none, [], fun s => if s = "rate" then some (.one [0, 4, 2]) else none⟩

example : got (fileFunction id qMk tFile none (some ["rate"]) {}) 5 none = .ok [.num 2] := by decide +kernel
example : got (fileFunction id qMk tFile (some ⟨105, 0, false⟩) (some ["rate"]) {}) 10 none = .ok [.num 3] := by decide +kernel
example : ["rate"].mapM tFile.vars = some [.one [0, 4, 2]] := rfl

/-- **C97.** An evolved domain that starts before the file. -/
example : got (fileFunction id qMk tFile (some ⟨50, 60, true⟩) (some ["rate"]) {}) 5 none = .error .evolved := by decide +kernel

/-! ## The same square over the reals, where square roots exist -/

/-- The triangles. -/
def rTris : List (Tri ℝ) := [⟨0, ⟨0, 0⟩, ⟨1, 0⟩, ⟨0, 1⟩⟩, ⟨1, ⟨1, 0⟩, ⟨1, 1⟩, ⟨0, 1⟩⟩]

/-- The mesh object. -/
def rMesh : Mesh ℝ := ⟨4, [(0, 1, 3), (1, 2, 3)], .tip ⟨-1, 3, -1, 3⟩ rTris 2, [⟨0, 0⟩, ⟨1, 0⟩, ⟨1, 1⟩, ⟨0, 1⟩]⟩

/-- The file. -/
def rFile : File ℝ :=
  ⟨.sww, 100, some [0, 10, 20], ⟨1000, 2000⟩, some [⟨0, 0⟩, ⟨1, 0⟩, ⟨1, 1⟩, ⟨0, 1⟩], [(0, 1, 3), (1, 2, 3)], fun s =>
    if s = "stage" then some (.two [[0, 0, 0, 0], [10, 20, 30, 20], [20, 20, 20, 20]]) else none⟩

/-- All requirements of `C97_value` are met: the file over the reals, its interpolator and the square root. -/
example : Reads (fun _ _ => some rMesh) rFile ["stage"] [⟨0, 0⟩, ⟨1, 0⟩, ⟨1, 1⟩, ⟨0, 1⟩] [0, 10, 20]
    [.two [[0, 0, 0, 0], [10, 20, 30, 20], [20, 20, 20, 20]]] rMesh rTris ∧ IsSqrt Real.sqrt := by
  refine ⟨⟨rfl, rfl, rfl, ?_, by simp, ?_, ?_, rfl, ⟨⟨1, ⟨-1, 3, -1, 3⟩, ?_⟩, ?_, ?_⟩, rfl, rfl⟩, isSqrt_real⟩
  · intro i j a b hij ha hb
    have hj : j < 3 := (List.getElem?_eq_some_iff.1 hb).1
    interval_cases j <;> interval_cases i <;> simp at ha hb <;> subst ha <;> subst hb <;> norm_num
  · simp [rFile]
  · intro v hv
    simp only [List.mem_cons, List.not_mem_nil, or_false] at hv
    subst hv
    exact ⟨rfl, by simp⟩
  · have h1 : Verif.Quad.quadOfTri (⟨-1, 3, -1, 3⟩ : Verif.Quad.Box ℝ) ⟨0, ⟨0, 0⟩, ⟨1, 0⟩, ⟨0, 1⟩⟩ = 0 := by
      norm_num [Verif.Quad.quadOfTri, Verif.Quad.quadOf, Verif.Quad.border]
    have h2 : Verif.Quad.quadOfTri (⟨-1, 3, -1, 3⟩ : Verif.Quad.Box ℝ) ⟨1, ⟨1, 0⟩, ⟨1, 1⟩, ⟨0, 1⟩⟩ = 0 := by
      norm_num [Verif.Quad.quadOfTri, Verif.Quad.quadOf, Verif.Quad.border]
    simp [Verif.Quad.buildTree, rTris, Verif.Quad.insertTri, Verif.Quad.Tree.new, rMesh, h1, h2]
  · intro t ht
    simp only [rTris, List.mem_cons, List.not_mem_nil, or_false] at ht
    rcases ht with rfl | rfl
    · exact ⟨0, 1, 3, rfl, by decide, by decide, by decide, rfl, rfl, rfl⟩
    · exact ⟨1, 2, 3, rfl, by decide, by decide, by decide, rfl, rfl, rfl⟩
  · intro t ht
    simp only [rTris, List.mem_cons, List.not_mem_nil, or_false] at ht
    unfold Verif.Polygon.Flat
    rcases ht with rfl | rfl <;> norm_num

end Verif.FileFn
