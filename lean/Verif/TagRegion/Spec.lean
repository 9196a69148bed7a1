import Verif.TagRegion.Model
import Mathlib.Algebra.BigOperators.Group.Finset.Basic

/-!
# What each action does to a triangle
-/

namespace Verif.TagRegion

variable {K Tag Name : Type} [Field K] [DecidableEq Tag] [DecidableEq Name]

def Act.tag : Act K Tag Name → Tag
  | .set t _ _ _ => t
  | .add t _ _ _ _ _ => t
  | .sum t _ _ _ => t

/-- The quantity which is changed. -/
def Act.answer : Act K Tag Name → Name
  | .set _ q _ _ => q
  | .add _ q _ _ _ _ => q
  | .sum _ q _ _ => q

def Act.loc : Act K Tag Name → Loc
  | .set _ _ _ l => l
  | .add _ _ _ _ _ l => l
  | .sum _ _ _ l => l

/-- The triangles with a tag. -/
def region (tags : List Tag) (t : Tag) : Finset ℕ := (Finset.range tags.length).filter fun k => tags[k]? = some t

/-- The new value at a vertex of a triangle of the region. -/
def newV (R : Finset ℕ) (s : State K Name) (k : ℕ) (i : Fin 3) : Act K Tag Name → K
  | .set _ _ x _ => x
  | .add _ _ q x false _ => (s q k).v i + x
  | .add _ _ q x true _ => (∑ j ∈ R, ((s q j).v 0 + (s q j).v 1 + (s q j).v 2)) / (3 * (R.card : K)) + x
  | .sum _ a b _ => (s a k).v i + (s b k).v i

/-- The new value at the centroid of a triangle of the region. -/
def newC (R : Finset ℕ) (s : State K Name) (k : ℕ) : Act K Tag Name → K
  | .set _ _ x _ => x
  | .add _ _ q x false _ => (s q k).c + x
  | .add _ _ q x true _ => (∑ j ∈ R, (s q j).c) / (R.card : K) + x
  | .sum _ a b _ => (s a k).c + (s b k).c

/-- The three values at the vertices, with their mean at the centroid. -/
def fromV (v : Fin 3 → K) : Cell K := ⟨v, (v 0 + v 1 + v 2) / 3⟩

/-- One value at the vertices and the centroid. -/
def fromC (c : K) : Cell K := ⟨fun _ => c, c⟩

/-- One action: quantities which it does not name stay as they are; a tag which no triangle has does nothing; else triangles of the region get their new values, and
in all triangles centroids follow vertices, or vertices centroids. -/
def after (tags : List Tag) (s : State K Name) (a : Act K Tag Name) : State K Name := fun q k =>
  if q = a.answer ∧ a.tag ∈ tags then
    match a.loc with
    | .vertices => fromV fun i => if k ∈ region tags a.tag then newV (region tags a.tag) s k i a else (s q k).v i
    | .centroids => fromC (if k ∈ region tags a.tag then newC (region tags a.tag) s k a else (s q k).c)
  else s q k

end Verif.TagRegion
