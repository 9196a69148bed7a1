import Verif.PolyFun.Model
import Verif.Polygon.Props

/-! C33: the last region that contains a point decides. -/

set_option linter.unusedSectionVars false

namespace Verif.PolyFun

open Verif.Polygon (Pt insidePolygon isInsidePolygon)
open Verif.GeoRef (Ref)

variable {K : Type*} [Field K] [LinearOrder K] [IsStrictOrderedRing K]

/-! ### Specification -/

/-- The value of a region at a point. -/
def Value.at (v : Value K) (x y : K) : K :=
  match v with
  | .const c => c
  | .fn f => f x y

/-- The default at a point. -/
def Default.at (d : Default K) (x y : K) : K :=
  match d with
  | .const c => c
  | .fresh f => f x y
  | .argX => x
  | .argY => y

/-- `v` is what a point with coordinates `x, y` should get: the value of the last region that
contains it, or the default. -/
def Gets (inside : List (Pt K) → Pt K → Prop) (rs : List (List (Pt K) × Value K)) (d : Default K)
    (x y v : K) : Prop :=
  (∃ before poly val after, rs = before ++ (poly, val) :: after ∧ inside poly ⟨x, y⟩ ∧
    (∀ r ∈ after, ¬ inside r.1 ⟨x, y⟩) ∧ v = val.at x y) ∨
  ((∀ r ∈ rs, ¬ inside r.1 ⟨x, y⟩) ∧ v = d.at x y)

/-- A point relative to the origin of a geo reference. -/
def relPt (g : Option (Ref K)) (q : Pt K) : Pt K :=
  match g with
  | none => q
  | some g => ⟨q.x - g.x, q.y - g.y⟩

/-- The polygon with absolute vertices contains the point given relative to the reference. -/
def insideRel (sq : K → K) (g : Option (Ref K)) (poly : List (Pt K)) (p : Pt K) : Prop :=
  isInsidePolygon sq true p (poly.map (relPt g)) = some true

/-! ### Proofs -/

/-- Writing at distinct places. -/
theorem fold_write (d : Default K) (val : Value K) (is : List ℕ) (hnd : is.Nodup) :
    ∀ a : Arrays K, (∀ i ∈ is, i < a.r.length) → 
      let b := is.foldl (fun a i => a.write d i (valueAt a i val)) a
      b.r.length = a.r.length ∧ b.x.length = a.x.length ∧ b.y.length = a.y.length ∧
      (∀ j, b.r[j]? = if j ∈ is then some (valueAt a j val) else a.r[j]?) ∧
      (d ≠ .argX → b.x = a.x) ∧ (d ≠ .argY → b.y = a.y) := by
  induction is with
  | nil => intro a _; simp
  | cons i is ih =>
    intro a hlt
    rw [List.nodup_cons] at hnd
    simp only [List.foldl_cons]
    obtain ⟨h1, h2, h3, h4, h5, h6⟩ := ih hnd.2 (a.write d i (valueAt a i val)) (by
      intro j hj
      simpa [Arrays.write] using hlt j (List.mem_cons_of_mem _ hj))
    have hi := hlt i List.mem_cons_self
    -- what is read at other places is unchanged
    have hother : ∀ j, j ≠ i → valueAt (a.write d i (valueAt a i val)) j val = valueAt a j val := by
      intro j hj
      cases val with
      | const c => rfl
      | fn f =>
        unfold valueAt Arrays.write
        cases d <;> simp [List.getD_eq_getElem?_getD, List.getElem?_set_ne (Ne.symm hj)]
    refine ⟨?_, ?_, ?_, ?_, ?_, ?_⟩
    · rw [h1]; simp [Arrays.write]
    · rw [h2]; cases d <;> simp [Arrays.write]
    · rw [h3]; cases d <;> simp [Arrays.write]
    · intro j
      rw [h4 j]
      by_cases hj : j ∈ is
      · have hne : j ≠ i := fun e => hnd.1 (e ▸ hj)
        rw [if_pos hj, if_pos (List.mem_cons_of_mem _ hj), hother j hne]
      · rw [if_neg hj]
        by_cases hji : j = i
        · subst hji
          rw [if_pos List.mem_cons_self]
          simp [Arrays.write, hi]
        · rw [if_neg (by simp [hji, hj])]
          simp [Arrays.write, List.getElem?_set_ne (Ne.symm hji)]
    · intro hd
      rw [h5 hd]
      cases d <;> simp [Arrays.write] at hd ⊢
    · intro hd
      rw [h6 hd]
      cases d <;> simp [Arrays.write] at hd ⊢

/-- The state after the regions: what every point has got. -/
theorem fold_paint (sq : K → K) (d : Default K) (xs ys : List K) (hl : xs.length = ys.length)
    (rs : List (List (Pt K) × Value K))
    (hd : (d ≠ .argX ∧ d ≠ .argY) ∨ ∀ r ∈ rs, ∃ c, r.2 = .const c) :
    let b := rs.foldl (paint sq d (xs.zipWith Pt.mk ys)) ⟨xs, ys, initial d xs ys⟩
    b.r.length = xs.length ∧ (d ≠ .argX → b.x = xs) ∧ (d ≠ .argY → b.y = ys) ∧
    ∀ (j : ℕ) (x y : K), xs[j]? = some x → ys[j]? = some y → ∃ v, b.r[j]? = some v ∧
      Gets (fun poly p => isInsidePolygon sq true p poly = some true) rs d x y v := by
  induction rs using List.reverseRecOn with
  | nil =>
    refine ⟨?_, fun _ => rfl, fun _ => rfl, ?_⟩
    · cases d <;> simp [initial, hl]
    · intro j x y hx hy
      refine ⟨d.at x y, ?_, Or.inr ⟨by simp, rfl⟩⟩
      cases d with
      | const c => simp [initial, Default.at, (List.getElem?_eq_some_iff.1 hx).1]
      | fresh f => simp [initial, List.getElem?_zipWith, hx, hy, Default.at]
      | argX => simpa [initial, Default.at] using hx
      | argY => simpa [initial, Default.at] using hy
  | append_singleton rs r ih =>
    obtain ⟨i1, i2, i3, i4⟩ := ih (hd.imp id fun h s hs => h s (List.mem_append_left _ hs))
    rw [List.foldl_append, List.foldl_cons, List.foldl_nil]
    generalize rs.foldl (paint sq d (xs.zipWith Pt.mk ys)) ⟨xs, ys, initial d xs ys⟩ = a at *
    obtain ⟨hpw, hmem⟩ := Polygon.C17_inside sq true (xs.zipWith Pt.mk ys) r.1
    have hlen : (xs.zipWith Pt.mk ys).length = xs.length := by simp [hl]
    obtain ⟨w1, -, -, w4, w5, w6⟩ := fold_write d r.2 (insidePolygon sq true (xs.zipWith Pt.mk ys) r.1)
      (hpw.imp fun h => h.ne) a (by
        intro i hi
        obtain ⟨h, -⟩ := (hmem i).1 hi
        rw [i1, ← hlen]; exact h)
    refine ⟨by rw [paint, w1, i1], fun h => by rw [paint, w5 h, i2 h], fun h => by
      rw [paint, w6 h, i3 h], ?_⟩
    intro j x y hx hy
    have hjx : j < xs.length := (List.getElem?_eq_some_iff.1 hx).1
    have hpt : (xs.zipWith Pt.mk ys)[j]? = some ⟨x, y⟩ := by
      simp [List.getElem?_zipWith, hx, hy]
    have hin : j ∈ insidePolygon sq true (xs.zipWith Pt.mk ys) r.1 ↔
        isInsidePolygon sq true ⟨x, y⟩ r.1 = some true := by
      rw [hmem j]
      constructor
      · rintro ⟨h, h'⟩
        rw [List.getElem?_eq_getElem h, Option.some.injEq] at hpt
        rw [← hpt]; exact h'
      · intro h'
        have h : j < (xs.zipWith Pt.mk ys).length := by rw [hlen]; exact hjx
        refine ⟨h, ?_⟩
        rw [List.getElem?_eq_getElem h, Option.some.injEq] at hpt
        rw [hpt]; exact h'
    rw [paint, w4 j]
    by_cases hj : j ∈ insidePolygon sq true (xs.zipWith Pt.mk ys) r.1
    · rw [if_pos hj]
      refine ⟨_, rfl, Or.inl ⟨rs, r.1, r.2, [], rfl, hin.1 hj, by simp, ?_⟩⟩
      rcases hd with ⟨hdx, hdy⟩ | hd
      · rw [← i2 hdx] at hx
        rw [← i3 hdy] at hy
        cases hr : r.2 with
        | const c => rfl
        | fn f => simp [valueAt, Value.at, List.getD_eq_getElem?_getD, hx, hy]
      · obtain ⟨c, hc⟩ := hd r (by simp)
        rw [hc]; rfl
    · rw [if_neg hj]
      obtain ⟨v, hv, hg⟩ := i4 j x y hx hy
      refine ⟨v, hv, ?_⟩
      have hno : ¬ isInsidePolygon sq true ⟨x, y⟩ r.1 = some true := fun h => hj (hin.2 h)
      rcases hg with ⟨before, poly, val, after, rfl, h1, h2, h3⟩ | ⟨h1, h2⟩
      · refine Or.inl ⟨before, poly, val, after ++ [r], by simp, h1, ?_, h3⟩
        intro s hs
        rcases List.mem_append.1 hs with hs | hs
        · exact h2 s hs
        · rw [List.mem_singleton.1 hs]; exact hno
      · refine Or.inr ⟨?_, h2⟩
        intro s hs
        rcases List.mem_append.1 hs with hs | hs
        · exact h1 s hs
        · rw [List.mem_singleton.1 hs]; exact hno

/-- C33: every point gets the value of the last region that contains it (polygons shifted by the
origin of the geo reference), evaluated at that point, or the default; provided that a default
function returns a new array or all region values are numbers. -/
theorem C33_last_region (sq : K → K) (rs : List (List (Pt K) × Value K)) (d : Default K)
    (g : Option (Ref K)) (xs ys : List K) (hl : xs.length = ys.length)
    (hd : (d ≠ .argX ∧ d ≠ .argY) ∨ ∀ r ∈ rs, ∃ c, r.2 = .const c) :
    ∃ out, call sq rs d g xs ys = some out ∧ out.length = xs.length ∧
      ∀ (j : ℕ) (x y : K), xs[j]? = some x → ys[j]? = some y → ∃ v, out[j]? = some v ∧
        Gets (insideRel sq g) rs d x y v := by
  have hpoly : ∀ poly : List (Pt K), GeoRef.change (g.getD GeoRef.default) none false poly =
      poly.map (relPt g) := by
    intro poly
    unfold GeoRef.change
    simp only [Bool.false_eq_true, if_false]
    apply List.map_congr_left
    intro q _
    cases g with
    | none => simp [relPt, GeoRef.changeRow, GeoRef.subOrigin, GeoRef.default]
    | some g => rfl
  obtain ⟨h1, -, -, h4⟩ := fold_paint sq d xs ys hl (regions g rs) (hd.imp id fun h r hr => by
    unfold regions at hr
    obtain ⟨s, hs, rfl⟩ := List.mem_map.1 hr
    exact h s hs)
  refine ⟨_, by unfold call; rw [if_pos hl], h1, ?_⟩
  intro j x y hx hy
  obtain ⟨v, hv, hg⟩ := h4 j x y hx hy
  refine ⟨v, hv, ?_⟩
  rcases hg with ⟨before, poly, val, after, he, hin, haft, hval⟩ | ⟨hno, hval⟩
  · unfold regions at he
    obtain ⟨b', c', rfl, hb, hc⟩ := List.map_eq_append_iff.1 he
    obtain ⟨r, a', rfl, hr, ha⟩ := List.map_eq_cons_iff.1 hc
    simp only [Prod.mk.injEq] at hr
    refine Or.inl ⟨b', r.1, r.2, a', rfl, ?_, ?_, ?_⟩
    · unfold insideRel
      rw [← hpoly, hr.1]; exact hin
    · intro s hs hs'
      unfold insideRel at hs'
      rw [← hpoly] at hs'
      exact haft (GeoRef.change (g.getD GeoRef.default) none false s.1, s.2)
        (ha ▸ List.mem_map.2 ⟨s, hs, rfl⟩) hs'
    · rw [hval, hr.2]
  · refine Or.inr ⟨?_, hval⟩
    intro s hs hs'
    unfold insideRel at hs'
    rw [← hpoly] at hs'
    exact hno (GeoRef.change (g.getD GeoRef.default) none false s.1, s.2)
      (List.mem_map.2 ⟨s, hs, rfl⟩) hs'

/-- C33: arguments of different length are refused. -/
theorem C33_lengths (sq : K → K) (rs : List (List (Pt K) × Value K)) (d : Default K)
    (g : Option (Ref K)) (xs ys : List K) (hl : xs.length ≠ ys.length) :
    call sq rs d g xs ys = none := by
  unfold call; rw [if_neg hl]

/-- C33: the value at a point does not depend on which other points are asked for. -/
theorem C33_pointwise (sq : K → K) (rs : List (List (Pt K) × Value K)) (d : Default K)
    (g : Option (Ref K)) (xs ys xs' ys' out out' : List K)
    (hd : (d ≠ .argX ∧ d ≠ .argY) ∨ ∀ r ∈ rs, ∃ c, r.2 = .const c)
    (h : call sq rs d g xs ys = some out) (h' : call sq rs d g xs' ys' = some out') (i j : ℕ)
    (hi : i < xs.length) (hx : xs[i]? = xs'[j]?) (hy : ys[i]? = ys'[j]?) : out[i]? = out'[j]? := by
  have hlen : ∀ a b o, call sq rs d g a b = some o → a.length = b.length := by
    intro a b o h
    by_contra hne
    rw [C33_lengths sq rs d g a b hne] at h
    cases h
  have hl := hlen _ _ _ h
  have hl' := hlen _ _ _ h'
  obtain ⟨o, e1, -, k1⟩ := C33_last_region sq rs d g xs ys hl hd
  obtain ⟨o', e2, -, k2⟩ := C33_last_region sq rs d g xs' ys' hl' hd
  rw [h, Option.some.injEq] at e1
  rw [h', Option.some.injEq] at e2
  subst e1 e2
  have hx1 : xs[i]? = some xs[i] := List.getElem?_eq_getElem hi
  have hy1 : ys[i]? = some (ys[i]'(hl ▸ hi)) := List.getElem?_eq_getElem (hl ▸ hi)
  obtain ⟨v, hv, g1⟩ := k1 i _ _ hx1 hy1
  obtain ⟨w, hw, g2⟩ := k2 j _ _ (hx ▸ hx1) (hy ▸ hy1)
  rw [hv, hw]
  congr 1
  -- the value got is unique
  have huniq : ∀ (rs : List (List (Pt K) × Value K)) (x y v w : K),
      Gets (insideRel sq g) rs d x y v → Gets (insideRel sq g) rs d x y w → v = w := by
    intro rs x y
    induction rs using List.reverseRecOn with
    | nil =>
      rintro v w (⟨b, p, c, a, he, -⟩ | ⟨-, rfl⟩) (⟨b', p', c', a', he', -⟩ | ⟨-, rfl⟩)
      · simp at he
      · simp at he
      · simp at he'
      · rfl
    | append_singleton rs r ih =>
      intro v w hv hw
      -- reduce to the shorter list or to the last region
      have red : ∀ v, Gets (insideRel sq g) (rs ++ [r]) d x y v →
          (insideRel sq g r.1 ⟨x, y⟩ ∧ v = r.2.at x y) ∨
          (¬ insideRel sq g r.1 ⟨x, y⟩ ∧ Gets (insideRel sq g) rs d x y v) := by
        rintro v (⟨b, p, c, a, he, h1, h2, h3⟩ | ⟨h1, h2⟩)
        · rcases List.eq_nil_or_concat a with rfl | ⟨a', s, rfl⟩
          · obtain ⟨-, h⟩ := List.append_inj' he (by simp)
            simp only [List.cons.injEq, and_true] at h
            subst h
            exact Or.inl ⟨h1, h3⟩
          · rw [List.concat_eq_append] at he h2
            have : rs ++ [r] = (b ++ (p, c) :: a') ++ [s] := by rw [he]; simp
            obtain ⟨hrs, h⟩ := List.append_inj' this (by simp)
            simp only [List.cons.injEq, and_true] at h
            subst h
            refine Or.inr ⟨h2 _ (by simp), Or.inl ⟨b, p, c, a', hrs, h1, ?_, h3⟩⟩
            exact fun s hs => h2 s (List.mem_append_left _ hs)
        · exact Or.inr ⟨h1 r (by simp), Or.inr ⟨fun s hs => h1 s (List.mem_append_left _ hs), h2⟩⟩
      rcases red v hv with ⟨a1, a2⟩ | ⟨a1, a2⟩ <;> rcases red w hw with ⟨b1, b2⟩ | ⟨b1, b2⟩
      · rw [a2, b2]
      · exact absurd a1 b1
      · exact absurd b1 a1
      · exact ih v w a2 b2
  exact huniq rs _ _ v w g1 g2

/-- C33, disagreement: with the default `lambda x, y: x` a region with a number overwrites the
coordinates that a later region's function is given.  The point `(1, 1)` lies in both squares; the
second one's function `x` should give `1` and gives `7`. -/
theorem C33_default_aliases : ∃ (rs : List (List (Pt ℚ) × Value ℚ)),
    call (fun x => x) rs .argX none [1] [1] = some [7] ∧
    Gets (insideRel (fun x => x) none) rs .argX 1 1 1 := by
  refine ⟨[([⟨0, 0⟩, ⟨2, 0⟩, ⟨2, 2⟩, ⟨0, 2⟩], .const 7),
    ([⟨0, 0⟩, ⟨3, 0⟩, ⟨3, 3⟩, ⟨0, 3⟩], .fn fun x _ => x)], by decide +kernel, ?_⟩
  refine Or.inl ⟨[([⟨0, 0⟩, ⟨2, 0⟩, ⟨2, 2⟩, ⟨0, 2⟩], .const 7)], _, _, [], rfl, ?_, by simp, rfl⟩
  unfold insideRel
  decide +kernel

/-- Overlapping squares, a number and a function; the second wins. -/
example : call (fun x => x) [([⟨0, 0⟩, ⟨2, 0⟩, ⟨2, 2⟩, ⟨0, 2⟩], .const 7),
    ([⟨1, 1⟩, ⟨4, 1⟩, ⟨4, 4⟩, ⟨1, 4⟩], .fn fun x y => x + y)] (.const (-1)) none
    [1 / 2, 3 / 2, 3, 9] [1 / 2, 3 / 2, 3, 9] = some [(7 : ℚ), 3, 6, -1] := by decide +kernel

end Verif.PolyFun
