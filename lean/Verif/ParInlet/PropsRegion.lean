import Verif.ParInlet.PropsAlloc

/-! # C96: the parts of a region -/

set_option linter.unusedSectionVars false

namespace Verif.ParInlet

open Verif.Polygon Verif.Region

variable {K : Type*} [Field K] [LinearOrder K] [IsStrictOrderedRing K]

/-- A region described by its shape. -/
inductive Shape (K : Type*) where
  | circle (c : Pt K) (r : K)
  | polygon (poly : List (Pt K)) (expand : Bool)
  | line (p0 p1 : Pt K)

/-- The arguments of `Region` for a shape. -/
def Shape.args : Shape K → Region.Args K
  | .circle c r => { none' with center := some c, radius := some r }
  | .polygon poly e => { none' with polygon := some poly, expand := e }
  | .line p0 p1 => { none' with line := some [p0, p1] }

/-- Lines and sides of polygons have a length. -/
def Shape.Proper : Shape K → Prop
  | .circle _ _ => True
  | .polygon poly _ => ∀ s ∈ edges poly, s.1 ≠ s.2
  | .line p0 p1 => p0 ≠ p1

/-- `d` is a part of `d0`: its triangles are triangles of `d0`, with the same corners and centroids. -/
def PartOf (d d0 : Region.Dom K) (home : ℕ → ℕ) : Prop :=
  ∀ k, k < d.tris.length → home k < d0.tris.length ∧ d.tris[k]? = d0.tris[home k]? ∧ d.centroids[k]? = d0.centroids[home k]?

/-- Whether a shape selects a triangle depends on that triangle alone. -/
theorem selects (sq : K → K) (sh : Shape K) (hsh : sh.Proper) :
    ∃ sel : Tri K → Pt K → Prop, ∀ (d : Region.Dom K) (_ : d.Sized) (_ : ∀ t ∈ d.tris, t.det ≠ 0) (r : Reg)
      (_ : make sq d sh.args = .ok r) (k : ℕ),
      k ∈ r.fullIndices ↔ d.full[k]? = some true ∧ ∃ t c, d.tris[k]? = some t ∧ d.centroids[k]? = some c ∧ sel t c := by
  have both : ∀ (d : Region.Dom K), d.Sized → ∀ k : ℕ,
      ((∃ t, d.tris[k]? = some t) ↔ ∃ c, d.centroids[k]? = some c) := by
    intro d hd k
    constructor
    · rintro ⟨t, ht⟩
      have := (List.getElem?_eq_some_iff.1 ht).1
      rw [← hd.1] at this
      exact ⟨_, List.getElem?_eq_getElem this⟩
    · rintro ⟨t, ht⟩
      have := (List.getElem?_eq_some_iff.1 ht).1
      rw [hd.1] at this
      exact ⟨_, List.getElem?_eq_getElem this⟩
  cases sh with
  | circle c r =>
    refine ⟨fun _ q => (q.x - c.x) ^ 2 + (q.y - c.y) ^ 2 < r ^ 2, fun d hd _ reg hr k => ?_⟩
    rcases C60_circle sq d hd c r none false with ⟨reg', idx, h1, -, -, h2, h3⟩ | ⟨h1, -⟩
    · have e : reg' = reg := Except.ok.inj (h1.symm.trans hr)
      subst e
      rw [h2 k]; beta_reduce; rw [h3]
      constructor
      · rintro ⟨⟨q, hq, hlt⟩, hf⟩
        obtain ⟨t, ht⟩ := (both d hd k).2 ⟨q, hq⟩
        exact ⟨hf, t, q, ht, hq, hlt⟩
      · rintro ⟨hf, t, q, -, hq, hlt⟩
        exact ⟨⟨q, hq, hlt⟩, hf⟩
    · have : (Except.error Region.Err.nothingFound : Except Region.Err Reg) = .ok reg := h1.symm.trans hr
      cases this
  | polygon poly e =>
    refine ⟨fun t q => isInsidePolygon sq true q poly = some true ∨ (e = true ∧ ∃ s ∈ edges poly, Meets s.1 s.2 t),
      fun d hd ht reg hr k => ?_⟩
    obtain ⟨reg', idx, h1, -, h2, h3⟩ := C60_polygon sq d hd poly none e ht hsh
    have e' : reg' = reg := Except.ok.inj (h1.symm.trans hr)
    subst e'
    rw [h2 k]; beta_reduce; rw [h3]
    constructor
    · rintro ⟨⟨q, hq, hin⟩ | ⟨he, s, hs, t, ht', hm⟩, hf⟩
      · obtain ⟨t, ht'⟩ := (both d hd k).2 ⟨q, hq⟩
        exact ⟨hf, t, q, ht', hq, Or.inl hin⟩
      · obtain ⟨q, hq⟩ := (both d hd k).1 ⟨t, ht'⟩
        exact ⟨hf, t, q, ht', hq, Or.inr ⟨he, s, hs, hm⟩⟩
    · rintro ⟨hf, t, q, ht', hq, hin | ⟨he, s, hs, hm⟩⟩
      · exact ⟨Or.inl ⟨q, hq, hin⟩, hf⟩
      · exact ⟨Or.inr ⟨he, s, hs, t, ht', hm⟩, hf⟩
  | line p0 p1 =>
    refine ⟨fun t _ => Meets p0 p1 t, fun d hd ht reg hr k => ?_⟩
    rcases C60_line sq d hd p0 p1 hsh none false ht with ⟨reg', idx, h1, -, -, h2, h3⟩ | ⟨h1, -⟩
    · have e : reg' = reg := Except.ok.inj (h1.symm.trans hr)
      subst e
      rw [h2 k]; beta_reduce; rw [h3]
      constructor
      · rintro ⟨⟨t, ht', hm⟩, hf⟩
        obtain ⟨q, hq⟩ := (both d hd k).1 ⟨t, ht'⟩
        exact ⟨hf, t, q, ht', hq, hm⟩
      · rintro ⟨hf, t, q, ht', -, hm⟩
        exact ⟨⟨t, ht', hm⟩, hf⟩
    · have : (Except.error Region.Err.nothingFound : Except Region.Err Reg) = .ok reg := h1.symm.trans hr
      cases this

/-- **C96.** A circle, polygon or line selects on the parts of a domain together exactly what it selects on the whole domain: if every
triangle of the domain is full on one processor in one place, every selected triangle is selected as a full triangle on one processor
in one place, and nothing else is selected. Ghost copies are never in `get_indices()`. -/
theorem C96_region (sq : K → K) (sh : Shape K) (hsh : sh.Proper) (d0 : Region.Dom K) (hd0 : d0.Sized) (ht : ∀ t ∈ d0.tris, t.det ≠ 0)
    (hfull : ∀ k < d0.tris.length, d0.full[k]? = some true) (r0 : Reg) (hr0 : make sq d0 sh.args = .ok r0)
    (procs : List ℕ) (d : ℕ → Region.Dom K) (home : ℕ → ℕ → ℕ) (hd : ∀ p ∈ procs, (d p).Sized)
    (hpart : ∀ p ∈ procs, PartOf (d p) d0 (home p)) (r : ℕ → Reg) (hr : ∀ p ∈ procs, make sq (d p) sh.args = .ok (r p))
    (hown : ∀ g < d0.tris.length, ∃! pk : ℕ × ℕ, pk.1 ∈ procs ∧ (d pk.1).full[pk.2]? = some true ∧ home pk.1 pk.2 = g) :
    (∀ p ∈ procs, ∀ k ∈ (r p).fullIndices, (d p).full[k]? = some true ∧ home p k ∈ r0.fullIndices) ∧
    (∀ g ∈ r0.fullIndices, ∃! pk : ℕ × ℕ, pk.1 ∈ procs ∧ pk.2 ∈ (r pk.1).fullIndices ∧ home pk.1 pk.2 = g) := by
  obtain ⟨sel, hsel⟩ := selects sq sh hsh
  have htp : ∀ p ∈ procs, ∀ t ∈ (d p).tris, t.det ≠ 0 := by
    intro p hp t hm
    obtain ⟨k, hk⟩ := List.mem_iff_getElem?.1 hm
    have := (hpart p hp k (List.getElem?_eq_some_iff.1 hk).1).2.1
    rw [hk] at this
    exact ht t (List.mem_of_getElem? this.symm)
  have key : ∀ p ∈ procs, ∀ k, (d p).full[k]? = some true → (k ∈ (r p).fullIndices ↔ home p k ∈ r0.fullIndices) := by
    intro p hp k hf
    have hk : k < (d p).tris.length := by rw [← (hd p hp).2]; exact (List.getElem?_eq_some_iff.1 hf).1
    obtain ⟨h1, h2, h3⟩ := hpart p hp k hk
    rw [hsel (d p) (hd p hp) (htp p hp) (r p) (hr p hp) k, hsel d0 hd0 ht r0 hr0 (home p k), h2, h3, hf, hfull _ h1]
  have isFull : ∀ p ∈ procs, ∀ k ∈ (r p).fullIndices, (d p).full[k]? = some true := fun p hp k hk =>
    ((hsel (d p) (hd p hp) (htp p hp) (r p) (hr p hp) k).1 hk).1
  refine ⟨fun p hp k hk => ⟨isFull p hp k hk, (key p hp k (isFull p hp k hk)).1 hk⟩, fun g hg => ?_⟩
  have hlt : g < d0.tris.length := by
    obtain ⟨-, t, -, h1, -⟩ := (hsel d0 hd0 ht r0 hr0 g).1 hg
    exact (List.getElem?_eq_some_iff.1 h1).1
  obtain ⟨⟨p, k⟩, ⟨h1, h2, h3⟩, hu⟩ := hown g hlt
  simp only at h1 h2 h3
  refine ⟨(p, k), ⟨h1, ?_, h3⟩, ?_⟩
  · refine (key p h1 k h2).2 ?_
    rw [h3]
    exact hg
  · rintro ⟨q, j⟩ ⟨g1, g2, g3⟩
    exact hu (q, j) ⟨g1, isFull q g1 j g2, g3⟩

end Verif.ParInlet
