import Verif.Basic
import Mathlib.Logic.Function.Basic
import Mathlib.Algebra.BigOperators.Group.List.Basic

/-!
# Model of setting quantities on regions with a tag

Sources
* `/repo/anuga/abstract_2d_finite_volumes/pmesh2domain.py` 148-164 (`build_tagged_elements_dictionary`);
* `/repo/anuga/abstract_2d_finite_volumes/generic_domain.py` 1061-1092 (`set_tag_region`, `_set_tag_region`), 799-821 (`set_quantity`);
* `/repo/anuga/abstract_2d_finite_volumes/tag_region.py` 14-157 (`Set_tag_region`, `Add_value_to_region`, `Add_quantities`);
* `/repo/anuga/abstract_2d_finite_volumes/quantity.py` 855-952 (`set_values`), 958-998 (`set_values_from_constant`), 1031-1084
  (`set_values_from_array`), 2042-2082 (`get_values`).

Simplifications
* exact numbers; all quantities named exist; locations are vertices and centroids (not unique vertices); `X` is a number; edge values are left out.
-/

namespace Verif.TagRegion

variable {K Tag Name : Type} [Field K] [DecidableEq Tag] [DecidableEq Name]

/-- Values of a quantity in one triangle: at the vertices and at the centroid. -/
structure Cell (K : Type) where
  v : Fin 3 → K
  c : K

/-- Values of all quantities in all triangles. -/
abbrev State (K Name : Type) := Name → ℕ → Cell K

/-- Where values are set. -/
inductive Loc where
  | vertices
  | centroids
  deriving DecidableEq

/-- The classes of `tag_region.py`: `Set_tag_region`, `Add_value_to_region` and `Add_quantities`. -/
inductive Act (K Tag Name : Type) where
  | set (tag : Tag) (q : Name) (x : K) (loc : Loc)
  | add (tag : Tag) (q initial : Name) (x : K) (average : Bool) (loc : Loc)
  | sum (tag : Tag) (q other : Name) (loc : Loc)

/-- `tagged_elements.setdefault(t, []).append(k)`, `pmesh2domain.py` 161. -/
def addTag (t : Tag) (k : ℕ) : List (Tag × List ℕ) → List (Tag × List ℕ)
  | [] => [(t, [k])]
  | e :: d => if e.1 = t then (e.1, e.2 ++ [k]) :: d else e :: addTag t k d

/-- `build_tagged_elements_dictionary`, `pmesh2domain.py` 148-164, from the tags of the triangles. -/
def tagged (tags : List Tag) : List (Tag × List ℕ) := tags.zipIdx.foldl (fun d e => addTag e.1 e.2 d) []

/-- `vertex_values[i] = ...` one after the other, `quantity.py` 998, 1079. -/
def putV (q : ℕ → Cell K) (l : List (ℕ × (Fin 3 → K))) : ℕ → Cell K :=
  l.foldl (fun q e => Function.update q e.1 { q e.1 with v := e.2 }) q

/-- `centroid_values[i] = ...` one after the other, `quantity.py` 971, 1055. -/
def putC (q : ℕ → Cell K) (l : List (ℕ × K)) : ℕ → Cell K :=
  l.foldl (fun q e => Function.update q e.1 { q e.1 with c := e.2 }) q

/-- `interpolate` in all triangles, `quantity.py` 945. -/
def interpolate (q : ℕ → Cell K) : ℕ → Cell K := fun k => { q k with c := ((q k).v 0 + (q k).v 1 + (q k).v 2) / 3 }

/-- `extrapolate_first_order` in all triangles, `quantity.py` 949. -/
def extrapolate (q : ℕ → Cell K) : ℕ → Cell K := fun k => { q k with v := fun _ => (q k).c }

/-- `num.average`. -/
def average (l : List K) : K := l.sum / (l.length : K)

/-- `set_quantity(name, values, location='vertices', indices=...)`. -/
def setV (s : State K Name) (q : Name) (l : List (ℕ × (Fin 3 → K))) : State K Name := Function.update s q (interpolate (putV (s q) l))

/-- `set_quantity(name, values, location='centroids', indices=...)`. -/
def setC (s : State K Name) (q : Name) (l : List (ℕ × K)) : State K Name := Function.update s q (extrapolate (putC (s q) l))

/-- `__call__` of the three classes, `tag_region.py` 54-61, 94-115, 133-157. -/
def call (a : Act K Tag Name) (t : Tag) (elems : List ℕ) (s : State K Name) : State K Name :=
  match a with
  | .set tag q x loc =>
    if t = tag then
      match loc with
      | .vertices => setV s q (elems.map fun k => (k, fun _ => x))
      | .centroids => setC s q (elems.map fun k => (k, x))
    else s
  | .add tag q initial x av loc =>
    if t = tag then
      match loc, av with
      | .vertices, true => setV s q (elems.map fun k => (k, fun _ => average (elems.flatMap fun j => [(s initial j).v 0, (s initial j).v 1, (s initial j).v 2]) + x))
      | .vertices, false => setV s q (elems.map fun k => (k, fun i => (s initial k).v i + x))
      | .centroids, true => setC s q (elems.map fun k => (k, average (elems.map fun j => (s initial j).c) + x))
      | .centroids, false => setC s q (elems.map fun k => (k, (s initial k).c + x))
    else s
  | .sum tag q other loc =>
    if t = tag then
      match loc with
      | .vertices => setV s q (elems.map fun k => (k, fun i => (s q k).v i + (s other k).v i))
      | .centroids => setC s q (elems.map fun k => (k, (s q k).c + (s other k).c))
    else s

/-- `_set_tag_region`, `generic_domain.py` 1083-1092. -/
def setTagRegion (tags : List Tag) (acts : List (Act K Tag Name)) (s : State K Name) : State K Name :=
  acts.foldl (fun s a => (tagged tags).foldl (fun s e => call a e.1 e.2 s) s) s

end Verif.TagRegion
