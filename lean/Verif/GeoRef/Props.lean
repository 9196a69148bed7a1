import Verif.GeoRef.Spec

/-! # C24, C25: conversion between geo references, files, zones -/

namespace Verif.GeoRef

set_option linter.unusedSectionVars false

open Verif.Polygon (Pt)

variable {K : Type*} [Field K] [LinearOrder K] [IsStrictOrderedRing K]

/-! ## C24: round trips -/

theorem add_sub (g : Ref K) (p : Pt K) : subOrigin g (addOrigin g p) = p := by
  cases p; simp [subOrigin, addOrigin]

theorem sub_add (g : Ref K) (p : Pt K) : addOrigin g (subOrigin g p) = p := by
  cases p; simp [subOrigin, addOrigin]

/-- **C24.** `get_relative` undoes `get_absolute` and conversely, for every reference (whatever its flag says) and every array
of points. -/
theorem C24_round_trip (g : Ref K) (ps : List (Pt K)) :
    (∃ qs, getAbsolute g (.many ps) = .ok qs ∧ getRelative g (.many qs) = .ok ps) ∧
      ∃ qs, getRelative g (.many ps) = .ok qs ∧ getAbsolute g (.many qs) = .ok ps := by
  refine ⟨⟨_, rfl, ?_⟩, ⟨_, rfl, ?_⟩⟩ <;> simp only [getRelative, getAbsolute, toAbs, toRel] <;> cases g.absolute <;>
    simp [Function.comp_def, add_sub, sub_add]

/-- **C24.** `get_absolute` adds the origin: exactly when the origin is `(0, 0)` or further than `1e-8` from it, and within
`1e-8` in each coordinate always. -/
theorem C24_absolute (g : Ref K) (hg : FlagOk g) (ps : List (Pt K)) :
    ∃ qs, getAbsolute g (.many ps) = .ok qs ∧ List.Forall₂ Close qs (positions g ps) ∧
      (Ordinary g → qs = positions g ps) := by
  refine ⟨_, rfl, ?_, ?_⟩
  · unfold toAbs positions
    by_cases h : g.absolute = true
    · rw [if_pos h]
      have hs := hg.1 h
      induction ps with
      | nil => exact .nil
      | cons p ps ih =>
        refine .cons ⟨?_, ?_⟩ ih
        · simpa [position, abs_neg] using hs.1
        · simpa [position, abs_neg] using hs.2
    · rw [if_neg h]
      induction ps with
      | nil => exact .nil
      | cons p ps ih =>
        refine .cons ⟨?_, ?_⟩ ih <;>
        · simp only [addOrigin, position]
          rw [show ∀ a b : K, a + b - (b + a) = 0 from fun a b => by ring]
          simp
  · intro ho
    unfold toAbs positions
    by_cases h : g.absolute = true
    · rw [if_pos h]
      have hs := hg.1 h
      have h0 : g.x = 0 ∧ g.y = 0 := by
        rcases ho with ho | ho | ho
        · exact ho
        · exact absurd hs.1 (not_le.2 ho)
        · exact absurd hs.2 (not_le.2 ho)
      rw [h0.1, h0.2]
      have : (position (0 : K) 0) = id := by
        funext p; cases p; simp [position]
      rw [this, List.map_id]
    · rw [if_neg h]
      apply List.map_congr_left
      intro p _
      simp [addOrigin, position, add_comm]

theorem changeRow_pos (self : Ref K) (o : Option (Ref K)) (p : Pt K) :
    position self.x self.y (changeRow self o p) =
      match o with
      | none => p
      | some o => position o.x o.y p := by
  cases o <;> cases p <;> simp [changeRow, position, subOrigin, addOrigin, add_comm]

/-- **C24.** `change_points_geo_ref` keeps every point where it is on the map, in the same order, for a single point and for an
array; points without reference are absolute. -/
theorem C24_change (self other : Ref K) (same : Bool) (hs : same = true → other = self) (ps : List (Pt K)) (x y : K) :
    (∃ qs, changePoints self (some other) same (.many ps) = .ok qs ∧ positions self qs = positions other ps) ∧
      (∃ qs, changePoints self none false (.many ps) = .ok qs ∧ positions self qs = ps) ∧
      ∃ q, changePoints self (some other) same (.one [x, y]) = .ok [q] ∧
        position self.x self.y q = position other.x other.y ⟨x, y⟩ := by
  refine ⟨⟨_, rfl, ?_⟩, ⟨_, rfl, ?_⟩, ?_⟩
  · unfold change positions
    cases same with
    | true => rw [if_pos rfl, hs rfl]
    | false =>
      rw [if_neg (by simp), List.map_map]
      exact List.map_congr_left fun p _ => changeRow_pos self (some other) p
  · unfold change positions
    rw [if_neg (by simp), List.map_map]
    conv_rhs => rw [← List.map_id ps]
    exact List.map_congr_left fun p _ => changeRow_pos self none p
  · cases same with
    | true =>
      refine ⟨⟨x, y⟩, rfl, ?_⟩
      rw [hs rfl]
    | false => exact ⟨_, rfl, changeRow_pos self (some other) _⟩

theorem position_inj {x y : K} {p q : Pt K} (h : position x y p = position x y q) : p = q := by
  cases p; cases q; simpa [position] using h

theorem positions_inj {g : Ref K} {ps qs : List (Pt K)} (h : positions g ps = positions g qs) : ps = qs :=
  (List.map_injective_iff.2 fun _ _ => position_inj) h

/-- **C24.** Moving to another reference and back returns the points; moving in two steps is moving at once. -/
theorem C24_change_back (a b c : Ref K) (ps : List (Pt K)) :
    change a (some b) false (change b (some a) false ps) = ps ∧
      change a (some b) false (change b (some c) false ps) = change a (some c) false ps := by
  have key : ∀ (u v : Ref K) (ps : List (Pt K)), positions u (change u (some v) false ps) = positions v ps := by
    intro u v ps
    obtain ⟨qs, h1, h2⟩ := (C24_change u v false (by simp) ps 0 0).1
    cases h1; exact h2
  constructor
  · apply positions_inj (g := a)
    rw [key, key]
  · apply positions_inj (g := a)
    rw [key, key, key]

/-- **C24.** The two routes to absolute coordinates agree: `get_absolute`, and moving to a reference with origin `(0, 0)`. -/
theorem C24_routes_agree (g z : Ref K) (hg : FlagOk g) (ho : Ordinary g) (hz : z.x = 0 ∧ z.y = 0) (ps : List (Pt K)) :
    getAbsolute g (.many ps) = changePoints z (some g) false (.many ps) := by
  obtain ⟨qs, h1, -, h3⟩ := C24_absolute g hg ps
  obtain ⟨rs, h4, h5⟩ := (C24_change z g false (by simp) ps 0 0).1
  rw [h1, h4, h3 ho, ← h5]
  congr 1
  unfold positions
  rw [hz.1, hz.2]
  have : (position (0 : K) 0) = id := by
    funext p; cases p; simp [position]
  rw [this, List.map_id]

/-- An ordinary reference. -/
def sampleRef : Ref ℚ := ⟨56, .southern, 500000, 10000000, "wgs84", "UTM", "m", 308500, 6189000, false⟩

/-- Another one. -/
def sampleRef2 : Ref ℚ := ⟨56, .undefined, 500000, 10000000, "wgs84", "UTM", "m", 3 / 2, -7, false⟩

example : FlagOk sampleRef ∧ Ordinary sampleRef := by
  unfold FlagOk Ordinary sampleRef
  decide +kernel

example : getAbsolute sampleRef (.many [⟨1, 2⟩, ⟨1 / 2, 0⟩]) = .ok [⟨308501, 6189002⟩, ⟨617001 / 2, 6189000⟩] ∧
    changePoints sampleRef2 (some sampleRef) false (.many [⟨1, 2⟩]) = .ok [⟨616999 / 2, 6189009⟩] ∧
    changePoints sampleRef (some sampleRef) true (.one [1, 2]) = .ok [⟨1, 2⟩] := by decide +kernel

/-- **C24.** An origin of `1e-9` is taken for `(0, 0)` by `get_absolute` but not by `change_points_geo_ref`: the two routes to
absolute coordinates differ. -/
theorem C24_tiny_origin :
    ∃ g : Ref ℚ, make 56 (1 / 10 ^ 9) 0 .southern = .ok g ∧ FlagOk g ∧ getAbsolute g (.many [⟨1, 2⟩]) = .ok [⟨1, 2⟩] ∧
      changePoints default (some g) false (.many [⟨1, 2⟩]) = .ok [⟨1 + 1 / 10 ^ 9, 2⟩] := by
  refine ⟨⟨56, .southern, 500000, 10000000, "wgs84", "UTM", "m", 1 / 10 ^ 9, 0, true⟩, ?_, ?_, ?_, ?_⟩
  · unfold make; decide +kernel
  · unfold FlagOk; decide +kernel
  · decide +kernel
  · decide +kernel

/-- **C24.** A single point, accepted by `change_points_geo_ref`, is always rejected by `get_absolute` and `get_relative`. -/
theorem C24_single_point (g : Ref K) (l : List K) :
    (∃ e, getAbsolute g (.one l) = .error e) ∧ ∃ e, getRelative g (.one l) = .error e := by
  constructor
  · simp only [getAbsolute]
    by_cases h : l.length = 2
    · exact ⟨_, if_pos h⟩
    · exact ⟨_, if_neg h⟩
  · simp only [getRelative]
    by_cases h : l.length = 2
    · exact ⟨_, if_pos h⟩
    · exact ⟨_, if_neg h⟩

/-! ### Constructors and files -/

theorem flagOk_near (g : Ref K) (h : g.absolute = nearZero g.x g.y) : FlagOk g := by
  unfold FlagOk
  rw [h]
  simp [nearZero]

theorem eqRef_iff (a b : Ref K) : eqRef a b = true ↔ a = b := by
  cases a; cases b
  simp only [eqRef, Bool.and_eq_true, decide_eq_true_eq, Ref.mk.injEq]
  tauto

/-- **C24.** The constructor accepts exactly the permitted zones and leaves the flag in order; equality of references (`==`)
means equality of every attribute. -/
theorem C24_construct (z : ℤ) (x y : K) (h : Hemi) :
    ((∃ g, make z x y h = .ok g) ↔ ZoneOk z) ∧
      (∀ g, make z x y h = .ok g → FlagOk g ∧ g.zone = z ∧ g.x = x ∧ g.y = y ∧ g.hemi = h) ∧
      (∀ a b : Ref K, eqRef a b = true ↔ a = b) := by
  refine ⟨?_, ?_, eqRef_iff⟩
  · unfold make ZoneOk
    by_cases hz : z = -1 ∨ z ≥ 1 ∧ z ≤ 60
    · rw [if_pos hz]
      exact ⟨fun _ => hz, fun _ => ⟨_, rfl⟩⟩
    · rw [if_neg hz]
      exact ⟨fun ⟨g, hg⟩ => absurd hg (by simp), fun h => absurd h hz⟩
  · intro g hg
    unfold make at hg
    by_cases hz : z = -1 ∨ z ≥ 1 ∧ z ≤ 60
    · rw [if_pos hz] at hg
      cases hg
      exact ⟨flagOk_near _ rfl, rfl, rfl, rfl, rfl⟩
    · rw [if_neg hz] at hg
      cases hg

/-- **C24.** A reference written to a NetCDF file and read back, into whatever object, is equal to the original; a file without
hemisphere gives an undefined one and everything else. -/
theorem C24_netcdf (g into : Ref K) (hg : FlagOk g) :
    readNetCDF into (writeNetCDF g) = g ∧ eqRef (readNetCDF into (writeNetCDF g)) g = true ∧
      readNetCDF into { writeNetCDF g with hemi := none } = { g with hemi := .undefined } := by
  have hn : nearZero g.x g.y = g.absolute := by
    rw [Bool.eq_iff_iff]
    unfold FlagOk at hg
    rw [hg]
    simp [nearZero]
  have h1 : readNetCDF into (writeNetCDF g) = g := by
    cases g
    simp only [readNetCDF, writeNetCDF, Option.getD_some]
    simp only at hn
    rw [hn]
  refine ⟨h1, (eqRef_iff _ _).2 h1, ?_⟩
  cases g
  simp only [readNetCDF, writeNetCDF, Option.getD_none]
  simp only at hn
  rw [hn]

/-- **C24.** A reference read from the text it wrote has the same origin and zone, hence converts points the same way, but loses
the hemisphere and all other attributes; read into an existing object, that object's flag is not brought up to date. -/
theorem C24_ascii (g : Ref K) (hg : FlagOk g) :
    (∀ ps, getAbsolute (fromASCII (writeASCII g)) (.many ps) = getAbsolute g (.many ps)) ∧
      (fromASCII (writeASCII g)).zone = g.zone ∧ (fromASCII (writeASCII g)).hemi = .undefined ∧
      (fromASCII (writeASCII g)).datum = "wgs84" ∧
      (Ordinary g → g.absolute = false → ∀ p, positions g [p] ≠ [p] ∧
        getAbsolute (readASCII default (writeASCII g)) (.many [p]) = .ok [p]) := by
  have hn : nearZero g.x g.y = g.absolute := by
    rw [Bool.eq_iff_iff]
    unfold FlagOk at hg
    rw [hg]
    simp [nearZero]
  refine ⟨fun ps => ?_, rfl, rfl, rfl, fun ho hf p => ⟨?_, ?_⟩⟩
  · unfold getAbsolute toAbs
    simp only [fromASCII, readASCII, writeASCII, hn]
    rfl
  · intro h
    have hx : g.x = 0 ∧ g.y = 0 := by
      cases p
      simpa [positions, position] using h
    have : g.absolute = true := hg.2 (by rw [hx.1, hx.2]; simp)
    rw [hf] at this
    cases this
  · simp only [getAbsolute, toAbs]
    have : (readASCII default (writeASCII g)).absolute = true := by
      simp [readASCII, default, nearZero]
    rw [if_pos this]

example : eqRef (readNetCDF default (writeNetCDF sampleRef)) sampleRef = true ∧
    eqRef (fromASCII (writeASCII sampleRef)) sampleRef = false := by decide +kernel

/-! ## C25: zones -/

/-- **C25.** If `reconcile_zones` returns, both references have the same zone and the same hemisphere, namely the known one;
nothing else has changed; and it returns exactly when nothing clashes. -/
theorem C25_reconciled (a b : Ref K) :
    ((reconcile a b).2 = none ↔ ¬ ZonesClash a.zone b.zone ∧ ¬ HemisClash a.hemi b.hemi) ∧
      ((reconcile a b).2 = none →
        (reconcile a b).1 =
          ({ a with zone := known (-1) a.zone b.zone, hemi := known .undefined a.hemi b.hemi },
           { b with zone := known (-1) a.zone b.zone, hemi := known .undefined a.hemi b.hemi })) := by
  rcases a with ⟨z1, h1, e1, n1, d1, p1, u1, x1, y1, a1⟩
  rcases b with ⟨z2, h2, e2, n2, d2, p2, u2, x2, y2, a2⟩
  simp only [reconcile, reconcileZone, ZonesClash, HemisClash, known, defaultZone]
  by_cases e : z1 = z2
  · subst e
    cases h1 <;> cases h2 <;> simp [reconcileHemi]
  · by_cases e1 : z1 = -1
    · subst e1
      cases h1 <;> cases h2 <;> simp [reconcileHemi, e]
    · by_cases e2 : z2 = -1
      · subst e2
        cases h1 <;> cases h2 <;> simp [reconcileHemi, e]
      · cases h1 <;> cases h2 <;> simp [e, e1, e2]

/-- **C25.** Whether it returns or raises, `reconcile_zones` never changes a defined zone or hemisphere, never touches anything
but zone and hemisphere, and any zone it fills in is the other one's. -/
theorem C25_defined_kept (a b : Ref K) :
    let a' := (reconcile a b).1.1
    let b' := (reconcile a b).1.2
    (a.zone ≠ -1 → a'.zone = a.zone) ∧ (b.zone ≠ -1 → b'.zone = b.zone) ∧
      (a.hemi ≠ .undefined → a'.hemi = a.hemi) ∧ (b.hemi ≠ .undefined → b'.hemi = b.hemi) ∧
      (a'.zone = a.zone ∨ a'.zone = b.zone) ∧ (b'.zone = b.zone ∨ b'.zone = a.zone) ∧
      { a' with zone := a.zone, hemi := a.hemi } = a ∧ { b' with zone := b.zone, hemi := b.hemi } = b := by
  rcases a with ⟨z1, h1, e1, n1, d1, p1, u1, x1, y1, a1⟩
  rcases b with ⟨z2, h2, e2, n2, d2, p2, u2, x2, y2, a2⟩
  simp only [reconcile, reconcileZone, defaultZone]
  by_cases e : z1 = z2
  · subst e
    cases h1 <;> cases h2 <;> simp [reconcileHemi]
  · by_cases e1 : z1 = -1
    · subst e1
      cases h1 <;> cases h2 <;> simp [reconcileHemi, e]
    · by_cases e2 : z2 = -1
      · subst e2
        cases h1 <;> cases h2 <;> simp [reconcileHemi, e]
      · cases h1 <;> cases h2 <;> simp [e, e1, e2]

/-- **C25.** A zone clash is reported before anything is changed, as `ANUGAError`; permitted zones stay permitted; reconciling
again changes nothing; reconciling with nothing changes nothing. -/
theorem C25_clash_first (a b : Ref K) :
    (ZonesClash a.zone b.zone → reconcile a b = ((a, b), some .anuga)) ∧
      (ZoneOk a.zone → ZoneOk b.zone → ZoneOk (reconcile a b).1.1.zone ∧ ZoneOk (reconcile a b).1.2.zone) ∧
      ((reconcile a b).2 = none →
        reconcile (reconcile a b).1.1 (reconcile a b).1.2 = reconcile a b) ∧
      reconcileNone a = (a, none) := by
  refine ⟨?_, ?_, ?_, ?_⟩
  · rintro ⟨h1, h2, h3⟩
    simp [reconcile, reconcileZone, defaultZone, h1, h2, h3]
  · intro ha hb
    have h := C25_defined_kept a b
    simp only at h
    constructor
    · rcases h.2.2.2.2.1 with h | h <;> rw [h] <;> assumption
    · rcases h.2.2.2.2.2.1 with h | h <;> rw [h] <;> assumption
  · intro h
    have h2 := (C25_reconciled a b).2 h
    rw [show reconcile a b = ((reconcile a b).1, (reconcile a b).2) from rfl, h, h2]
    simp [reconcile, reconcileZone, reconcileHemi]
  · rcases a with ⟨z, h, e, n, d, p, u, x, y, f⟩
    by_cases hz : z = -1
    · cases h <;> simp [reconcileNone, reconcile, reconcileZone, reconcileHemi, default, defaultZone, hz]
    · cases h <;> simp [reconcileNone, reconcile, reconcileZone, reconcileHemi, default, defaultZone, hz]

/-- **C25.** A hemisphere clash is noticed only after the zones have been reconciled: the call raises (a `TypeError`, not the
intended `ANUGAError`) and leaves one reference with a zone it did not have. -/
theorem C25_not_atomic (a b : Ref K) (hz : a.zone = -1) (hb : b.zone ≠ -1) (hh : HemisClash a.hemi b.hemi) :
    (reconcile a b).2 = some .type ∧ (reconcile a b).1.1.zone = b.zone ∧ (reconcile a b).1.1.zone ≠ a.zone := by
  have hne : ¬ a.zone = b.zone := fun h => hb (by rw [← h, hz])
  simp [reconcile, reconcileZone, reconcileHemi, defaultZone, hz, hh.1, hh.2.1, hh.2.2, hb, Ne.symm hb]

example : (reconcile sampleRef { sampleRef2 with zone := -1 }).2 = none ∧
    (reconcile sampleRef { sampleRef2 with zone := -1 }).1.2 = { sampleRef2 with hemi := .southern } := by decide +kernel

example : (reconcile { sampleRef2 with zone := -1, hemi := .northern } sampleRef).2 = some .type ∧
    (reconcile { sampleRef2 with zone := -1, hemi := .northern } sampleRef).1.1.zone = 56 := by decide +kernel

end Verif.GeoRef
