import Verif.Gen.Props
import Mathlib.Data.Rat.Floor

/-! Concrete cases for C89. -/

namespace Verif.Gen

open Verif.Polygon (Pt)
open Verif.GeoRef (Ref)

/-- A square with corners relative to `(100, 200)`, tags for three sides, one interior region, one region that sticks out, a hole, a breakline
and a region point. -/
def args : Args ℚ where
  bounding := [⟨1, 1⟩, ⟨9, 1⟩, ⟨9, 9⟩, ⟨1, 9⟩]
  tags := some [("wall", [0, 2]), ("sea", [-1])]
  maxArea := some 10
  interior := some [([⟨2, 2⟩, ⟨4, 2⟩, ⟨4, 4⟩], some 2), ([⟨8, 8⟩, ⟨12, 8⟩, ⟨8, 9⟩], some 1)]
  holes := some [[⟨5, 5⟩, ⟨6, 5⟩, ⟨6, 6⟩]]
  holeTags := some [[("house", [1])]]
  polyRef := some ⟨56, .undefined, 500000, 10000000, "wgs84", "UTM", "m", 100, 200, false⟩
  meshRef := none
  breaklines := some [[⟨102, 208⟩, ⟨103, 208⟩, ⟨104, 207⟩]]
  regionPts := some [(⟨107, 207⟩, 3)]
  failOutside := false

theorem args_honest : Honest args.polyRef := by
  intro r hr
  simp only [args, Option.some.injEq] at hr
  subst hr
  simp

/-- What is seen of a result. -/
def seen (r : Except Err (Outline ℚ)) : Option (List (String × List (Option (Pt ℚ)))) :=
  match r with
  | .ok o => some (o.picture.map fun s => (s.2, [s.1.1, s.1.2]))
  | .error _ => none

/-- The picture: two pieces of breakline, four sides with tags, three sides of the region that is contained, three sides of the hole. -/
example : seen (createOutline id 3 args) = some [("", [some ⟨102, 208⟩, some ⟨103, 208⟩]), ("", [some ⟨103, 208⟩, some ⟨104, 207⟩]),
    ("wall", [some ⟨101, 201⟩, some ⟨109, 201⟩]), ("", [some ⟨109, 201⟩, some ⟨109, 209⟩]), ("wall", [some ⟨109, 209⟩, some ⟨101, 209⟩]),
    ("sea", [some ⟨101, 209⟩, some ⟨101, 201⟩]), ("", [some ⟨102, 202⟩, some ⟨104, 202⟩]), ("", [some ⟨104, 202⟩, some ⟨104, 204⟩]),
    ("", [some ⟨104, 204⟩, some ⟨102, 202⟩]), ("interior", [some ⟨105, 205⟩, some ⟨106, 205⟩]), ("house", [some ⟨106, 205⟩, some ⟨106, 206⟩]),
    ("interior", [some ⟨106, 206⟩, some ⟨105, 205⟩])] := by decide +kernel

/-- Resolutions and reference of a result. -/
def areas (r : Except Err (Outline ℚ)) : Option (List (Option ℚ) × ℕ × ℚ × ℚ) :=
  match r with
  | .ok o => some (o.regionPlaces.map (·.2.2), o.holes.length, o.ref.x, o.ref.y)
  | .error _ => none

/-- The hypotheses of C89 hold for these arguments. -/
example : areas (createOutline id 3 args) = some ([some 10, some 2, some 3], 1, 101, 201) := by decide +kernel

example : Acceptable id 3 args :=
  (C89_accepts args_honest).1 (by
    have h : (areas (createOutline id 3 args)).isSome = true := by decide +kernel
    cases hc : createOutline id 3 args with
    | ok o => exact ⟨o, rfl⟩
    | error e => rw [hc] at h; simp [areas] at h)

/-- The error of a run. -/
def fault (r : Except Err (Outline ℚ)) : Option Err :=
  match r with
  | .ok _ => none
  | .error e => some e

/-- Regions that stick out, tags for missing sides, holes that are no polygons. -/
example : fault (createOutline id 3 { args with failOutside := true }) = some .polygon ∧
    fault (createOutline id 3 { args with tags := some [("wall", [4])] }) = some .segment ∧
    fault (createOutline id 3 { args with tags := some [("wall", [-5])] }) = some .index ∧
    fault (createOutline id 3 { args with holes := some [[⟨2, 2⟩, ⟨3, 3⟩]] }) = some .polygon := by decide +kernel

/-- **C89.** The point that carries the overall maximal area may lie in an interior region: the interior regions are not left out when it is
chosen, so a region that shares the first corner of the bounding polygon has both points. -/
theorem C89_shared_corner : ∃ (a : Args ℚ) (o : Outline ℚ) (p : Pt ℚ), createOutline id 3 a = .ok o ∧ a.polyRef = none ∧
    (∃ r, a.interior = some [r] ∧ Inside id r.1 p ∧ o.regionPlaces = [(p, "", a.maxArea), (p, "", r.2)] ∧ r.2 ≠ a.maxArea) := by
  let a : Args ℚ := ⟨[⟨1, 1⟩, ⟨9, 1⟩, ⟨9, 9⟩, ⟨1, 9⟩], none, some 10, some [([⟨1, 1⟩, ⟨3, 1⟩, ⟨3, 3⟩, ⟨1, 3⟩], some 1)], none, none, none, none, none,
    none, true⟩
  have h : (areas (createOutline id 3 a)).isSome = true := by decide +kernel
  cases hc : createOutline id 3 a with
  | error e => rw [hc] at h; simp [areas] at h
  | ok o =>
    refine ⟨a, o, ⟨1 + 1 / 10 ^ 8, 1 + 1 / 10 ^ 8⟩, hc, rfl, _, rfl, ?_, ?_, ?_⟩
    · unfold Inside; decide +kernel
    · have : (match createOutline id 3 a with | .ok o => some o.regionPlaces | .error _ => none) =
          some [(⟨1 + 1 / 10 ^ 8, 1 + 1 / 10 ^ 8⟩, "", some 10), (⟨1 + 1 / 10 ^ 8, 1 + 1 / 10 ^ 8⟩, "", some 1)] := by decide +kernel
      rw [hc] at this
      simpa using this
    · decide +kernel

/-- **C89.** The documented distance `sqrt(2 * delta)` to a corner is not kept: coordinates are moved by a fraction of themselves. -/
theorem C89_point_far : ∃ (poly : List (Pt ℚ)) (p : Pt ℚ), pointInPolygon id poly 1 (1 / 10 ^ 8) = some p ∧
    ∀ v ∈ poly, 2 * (1 / 10 ^ 8) < (p.x - v.x) ^ 2 + (p.y - v.y) ^ 2 := by
  refine ⟨[⟨10 ^ 6, 10 ^ 6⟩, ⟨10 ^ 6 + 9, 10 ^ 6⟩, ⟨10 ^ 6 + 9, 10 ^ 6 + 9⟩, ⟨10 ^ 6, 10 ^ 6 + 9⟩], ⟨10 ^ 6 + 1 / 100, 10 ^ 6 + 1 / 100⟩, by decide +kernel, ?_⟩
  decide +kernel

end Verif.Gen
