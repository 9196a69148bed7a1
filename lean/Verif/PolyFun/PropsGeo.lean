import Verif.PolyFun.Props
import Verif.Polygon.Spec

/-! C33: geo references only move the origin. -/

set_option linter.unusedSectionVars false

namespace Verif.PolyFun

open Verif.Polygon
open Verif.GeoRef (Ref)

variable {K : Type*} [Field K] [LinearOrder K] [IsStrictOrderedRing K]

theorem pointOnLine_shift (sq : K → K) (rtol atol : K) (d p a b : Pt K) :
    pointOnLine sq rtol atol (shift d p) (shift d a) (shift d b) = pointOnLine sq rtol atol p a b := by
  simp only [pointOnLine, shift, add_sub_add_right_eq_sub]

theorem crosses_shift (d p a b : Pt K) :
    crosses (shift d p) (shift d a) (shift d b) = crosses p a b := by
  simp only [crosses, shift, add_sub_add_right_eq_sub, add_lt_add_iff_right, ge_iff_le,
    add_le_add_iff_right]
  congr 2
  rw [eq_iff_iff]
  constructor <;> intro h <;> linarith

theorem scan_shift (sq : K → K) (closed : Bool) (d p : Pt K) :
    ∀ (es : List (Pt K × Pt K)) (b : Bool),
      scan sq closed (shift d p) (es.map fun e => (shift d e.1, shift d e.2)) b =
        scan sq closed p es b
  | [], b => rfl
  | (a, c) :: es, b => by
    simp only [List.map_cons, scan, pointOnLine_shift, crosses_shift, scan_shift sq closed d p es]

theorem growBox_shift (d : Pt K) : ∀ (poly : List (Pt K)) (b : Box K),
    (poly.map (shift d)).foldl growBox ⟨b.minx + d.x, b.maxx + d.x, b.miny + d.y, b.maxy + d.y⟩ =
      (let c := poly.foldl growBox b
       ⟨c.minx + d.x, c.maxx + d.x, c.miny + d.y, c.maxy + d.y⟩)
  | [], b => rfl
  | v :: poly, b => by
    simp only [List.map_cons, List.foldl_cons]
    rw [← growBox_shift d poly (growBox b v)]
    congr 1
    simp only [growBox, shift, add_lt_add_iff_right, gt_iff_lt]
    congr 1 <;> split_ifs <;> rfl

/-- Moving polygon and point together does not change the inside test. -/
theorem insideFlag_shift (sq : K → K) (closed : Bool) (d : Pt K) (poly : List (Pt K)) (p : Pt K) :
    insideFlag sq closed (poly.map (shift d)) (shift d p) = insideFlag sq closed poly p := by
  cases poly with
  | nil => rfl
  | cons v vs =>
    have hb := growBox_shift d (v :: vs) ⟨v.x, v.x, v.y, v.y⟩
    have he : edges ((v :: vs).map (shift d)) =
        (edges (v :: vs)).map fun e => (shift d e.1, shift d e.2) := by
      unfold edges
      rw [← List.map_rotate, List.zip_map]
      rfl
    unfold insideFlag
    simp only [List.map_cons] at hb he ⊢
    have e1 : (shift d v).x = v.x + d.x := rfl
    have e2 : (shift d v).y = v.y + d.y := rfl
    rw [e1, e2, hb, he, scan_shift]
    simp only [shift, add_lt_add_iff_right, gt_iff_lt]

/-- C33: with a geo reference a point given by relative coordinates gets the value of the last region
whose polygon, in absolute coordinates, contains the point's absolute position. -/
theorem C33_geo_reference (sq : K → K) (g : Ref K) (poly : List (Pt K)) (x y : K) :
    insideRel sq (some g) poly ⟨x, y⟩ ↔
      isInsidePolygon sq true ⟨x + g.x, y + g.y⟩ poly = some true := by
  unfold insideRel
  rw [isInside_eq, isInside_eq, ← insideFlag_shift sq true ⟨g.x, g.y⟩ (poly.map (relPt (some g)))]
  have : (poly.map (relPt (some g))).map (shift ⟨g.x, g.y⟩) = poly := by
    rw [List.map_map]
    conv_rhs => rw [← List.map_id poly]
    apply List.map_congr_left
    intro q _
    simp [relPt, shift]
  rw [this]
  rfl

example : isInsidePolygon (fun x : ℚ => x) true ⟨1 + 10, 1 + 20⟩
    [⟨10, 20⟩, ⟨12, 20⟩, ⟨12, 22⟩, ⟨10, 22⟩] = some true := by decide +kernel

end Verif.PolyFun
