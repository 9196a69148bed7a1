import Verif.Caching.PropsTwo

/-! # Cases meeting the hypotheses of C102 -/

namespace Verif.Caching

/-- A hash function that tells nothing apart. -/
def flat : Hasher String ℚ Unit := ⟨fun _ => (), fun _ => (), fun _ => ()⟩

/-- Size and time of a file, in a world that is the number in the file. -/
def statOf (w : ℕ) (_ : String) : String × String := (toString w, "t")

/-- One word as argument. -/
def word (a : String) : Args String ℚ := ⟨.tuple (.cons (.atom a) .nil), .dict .nil⟩

/-- The length of the word. -/
def lengthOf : Fn String ℚ Unit ℕ ℕ := ⟨"length", (), fun _ a => match a.args with
  | .tuple (.cons (.atom s) .nil) => some s.length
  | _ => some 0⟩

/-- A function that reads the file. -/
def reader : Fn String ℚ Unit ℕ ℕ := ⟨"read", (), fun w _ => some w⟩

/-- Every word has the same hash here, and the word asked for is found in the second place or put there. -/
def ops : List (Op String ℚ Unit Unit ℕ ℕ) :=
  [.call lengthOf (word "ab") [] {}, .call lengthOf (word "abc") [] {}, .loseArgs (keyOf flat lengthOf (word "ab")) 0 true, .world 5]

example : (step flat statOf id (run flat statOf id (fresh 0) ops) (.call lengthOf (word "ab") [] {})).2 = .value 2 :=
  C102_exact (ops := ops) (a := word "ab") (F := fun f => f = lengthOf) (fun f g hf hg _ _ => by rw [hf, hg]) (fun f hf w w' => by rw [hf]; rfl)
    (fun f hf w a => by subst hf; unfold lengthOf; simp only; split <;> rfl)
    ⟨rfl, ⟨⟨trivial, trivial⟩, rfl⟩, rfl, ⟨⟨trivial, trivial⟩, rfl⟩, trivial⟩ rfl ⟨⟨trivial, trivial⟩, rfl⟩ [] {} rfl

/-- A hash function that tells words apart. -/
def sharp : Hasher String ℚ (List String) := ⟨fun a => [a], fun _ => [], List.flatten⟩

/-- Any calls with words. -/
example (a b : String) : (step sharp statOf id (run sharp statOf id (fresh 0) [.call lengthOf (word a) [] {}, .world 3]) (.call lengthOf (word b) ["f"] {})).2 =
    .value b.length :=
  C102_no_collisions (ops := [.call lengthOf (word a) [] {}, .world 3]) (a := word b) (F := fun f => f = lengthOf) (S := fun a => ∃ s, a = word s) (fun f g hf hg _ _ => by rw [hf, hg])
    (fun f hf w w' => by rw [hf]; rfl)
    (by
      rintro _ _ ⟨s, rfl⟩ ⟨t, rfl⟩ h
      simp only [myhash, myhashes, pair, word, sharp] at h
      simp at h
      rw [h])
    ⟨rfl, ⟨a, rfl⟩, trivial⟩ rfl ⟨b, rfl⟩ ["f"] {} rfl

/-- The file held 1 when it was read and holds 7 now; it is a dependency, but the answer is 1. -/
example : (step flat statOf id { (step flat statOf id (fresh 1) (.call reader (word "f") ["f"] {})).1 with world := 7 } (.call reader (word "f") ["f"] {})).2 =
    .value 1 :=
  C102_changed_files_unnoticed (Or.inr rfl) rfl rfl (Or.inr rfl) 7 {} rfl

/-- With two dependencies the file is read again. -/
example : (step flat statOf id { (step flat statOf id (fresh 1) (.call reader (word "f") ["f"] {})).1 with world := 7 }
    (.call reader (word "f") ["f", "g"] {})).2 = .value 7 :=
  C102_count_noticed (t := 1) (Or.inr rfl) rfl rfl ⟨by simp, by simp⟩ 7

end Verif.Caching
