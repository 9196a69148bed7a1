import Verif.Damage.Model
import Mathlib.Order.Bounds.Basic
import Mathlib.Algebra.Group.Even
import Mathlib.Algebra.Order.Group.Abs

/-! # What damage to structures should be -/

namespace Verif.Damage

variable {K : Type} [Field K] [LinearOrder K]

/-- Values which are all there. -/
def Val.Known (v : Val K) (w z uh vh : K) : Prop := v.w = some w ∧ v.z = some z ∧ v.uh = some uh ∧ v.vh = some vh

/-- Values at a point, in one of the files, at one time. -/
def Seen (files : List (List (List (Val K)))) (i : ℕ) (w z uh vh : K) : Prop :=
  ∃ f ∈ files, ∃ ts, f[i]? = some ts ∧ ∃ v ∈ ts, v.Known w z uh vh

/-- `v` is the value at `x` of the broken line through some points. -/
def Line (l : List (K × K)) (x v : K) : Prop :=
  ∃ a p q b, l = a ++ p :: q :: b ∧ p.1 ≤ x ∧ x ≤ q.1 ∧ (v - p.2) * (q.1 - p.1) = (q.2 - p.2) * (x - p.1)

/-- Damage in thousandths by depth in centimetres. -/
def veneerTable : List (ℤ × ℤ) :=
  [(0, 16), (10, 169), (30, 445), (50, 472), (100, 618), (150, 629), (200, 633), (250, 694), (100000, 69400)]

def brickTable : List (ℤ × ℤ) :=
  [(0, 16), (10, 150), (30, 425), (50, 449), (100, 572), (150, 582), (200, 587), (250, 647), (100000, 64700)]

def contentsTable : List (ℤ × ℤ) :=
  [(0, 13), (10, 102), (30, 381), (50, 500), (100, 970), (150, 976), (200, 986), (100000, 98600)]

/-- A table in metres and fractions. -/
def curve (t : List (ℤ × ℤ)) : List (K × K) := t.map fun e => ((e.1 : K) / 100, (e.2 : K) / 1000)

/-- The table for a type of wall; anything but double brick counts as brick veneer. -/
def structTable (wall : String) : List (ℤ × ℤ) := if wall = "Double Brick" then brickTable else veneerTable

/-- `n` is the whole number nearest to `x`; halves go to the even number. -/
def Nearest (x : K) (n : ℤ) : Prop := |x - n| ≤ 1 / 2 ∧ (|x - n| = 1 / 2 → Even n)

/-- Probability of collapse by depth above the floor and distance from the shore. -/
def chance (d s : K) : K :=
  let pick := fun a b c e : K => if s ≤ 125 then a else if s ≤ 200 then b else if s ≤ 250 then c else e
  if d ≤ 1 / 10 ^ 12 then 0
  else if d ≤ 1 then pick (5 / 100) (2 / 100) (1 / 100) 0
  else if d ≤ 2 then pick (60 / 100) (30 / 100) (10 / 100) (5 / 100)
  else if d ≤ 3 then pick (80 / 100) (40 / 100) (25 / 100) (15 / 100)
  else if d ≤ 5 then pick (95 / 100) (70 / 100) (50 / 100) (30 / 100)
  else pick (99 / 100) (90 / 100) (65 / 100) (45 / 100)

/-- The structures with the given probability of collapse. -/
def atRisk (hs : List (House K)) (p : K) (i : ℕ) : Prop := ∃ h, hs[i]? = some h ∧ chance h.depth h.shore = p

instance (hs : List (House K)) (p : K) (i : ℕ) : Decidable (atRisk hs p i) :=
  match e : hs[i]? with
  | none => isFalse (by rintro ⟨h, hh, _⟩; rw [e] at hh; cases hh)
  | some h => if c : chance h.depth h.shore = p then isTrue ⟨h, e, c⟩
    else isFalse (by rintro ⟨h', hh, c'⟩; rw [e] at hh; cases hh; exact c c')

end Verif.Damage
