import Verif.Sdf.Spec

/-!
# What is read
-/

namespace Verif.Sdf

variable {K : Type}

theorem skip (l : List (Line K)) (h : NoSurface l) (t : List (Line K)) (ps : List (K × K × K)) : sections false ps (l ++ t) = sections false ps t := by
  induction l with
  | nil => rfl
  | cons a l ih =>
    have ha : a ≠ .surface := fun e => h (e ▸ List.mem_cons_self)
    have hl : NoSurface l := fun e => h (List.mem_cons_of_mem _ e)
    rw [List.cons_append]
    cases a <;> first | exact absurd rfl ha | (rw [sections]; exact ih hl)

theorem body_read {l : List (Line K)} {ps : List (K × K × K)} (h : Holds l ps) (t : List (Line K)) (qs : List (K × K × K)) :
    sections true qs (l ++ t) = sections true (qs ++ ps) t := by
  induction h generalizing qs with
  | nil => simp
  | blank _ ih => rw [List.cons_append, sections]; exact ih qs
  | pt x y z _ ih => rw [List.cons_append, sections, ih, List.append_assoc]; rfl

theorem section_read (s : Section K) (hs : s.Ok) (t : List (Line K)) : sections false [] (s.lines ++ t) = (sections false [] t).map (s.points :: ·) := by
  have e : s.lines ++ t = s.front ++ (.surface :: (s.body ++ (.fin :: t))) := by simp [Section.lines]
  rw [e, skip _ hs.1, sections, body_read hs.2, sections, List.nil_append]

theorem file_read (ss : List (Section K)) (hs : ∀ s ∈ ss, s.Ok) (rest : List (Line K)) :
    sections false [] (file ss rest) = (sections false [] rest).map (ss.map Section.points ++ ·) := by
  induction ss with
  | nil => simp [file]
  | cons s ss ih =>
    have e : file (s :: ss) rest = s.lines ++ file ss rest := by simp [file]
    rw [e, section_read s (hs s List.mem_cons_self), ih fun x hx => hs x (List.mem_cons_of_mem _ hx), Option.map_map]
    cases sections false [] rest <;> rfl

theorem convert_of (n : ℕ) (lines : List (Line K)) (ls : List (List (K × K × K))) (h : sections false [] lines = some ls) :
    convert n lines = if ls ≠ [] ∧ ls.length = n then some ls.flatten else none := by
  unfold convert
  rw [h]
  cases ls with
  | nil => simp
  | cons a l => simp

/-- C122. All points of all sections are read in order, if there are as many sections as reported and at least one. -/
theorem C122_read (n : ℕ) (ss : List (Section K)) (hs : ∀ s ∈ ss, s.Ok) (rest : List (Line K)) (hr : NoSurface rest) :
    convert n (file ss rest) = if ss ≠ [] ∧ ss.length = n then some (ss.flatMap Section.points) else none := by
  have h0 : sections false [] rest = some [] := by
    have := skip rest hr [] []
    rwa [List.append_nil] at this
  rw [convert_of n _ (ss.map Section.points) (by rw [file_read ss hs, h0]; simp)]
  simp [List.flatMap]

/-- C122. A last section without an end is passed over in silence, if it is not counted in the header. -/
theorem C122_unfinished (n : ℕ) (ss : List (Section K)) (hs : ∀ s ∈ ss, s.Ok) (s : Section K) (h : s.Ok) :
    convert n (file ss (s.front ++ .surface :: s.body)) = convert n (file ss []) := by
  have h0 : sections false [] (s.front ++ .surface :: s.body) = some [] := by
    rw [skip _ h.1, sections]
    have := body_read h.2 [] []
    rw [List.append_nil] at this
    rw [this]
    rfl
  have h1 : sections false [] ([] : List (Line K)) = some [] := rfl
  rw [convert_of n _ (ss.map Section.points) (by rw [file_read ss hs, h0]; simp), convert_of n _ (ss.map Section.points) (by rw [file_read ss hs, h1]; simp)]

/-- C122. Anything but points and blank lines in a surface is refused, also the beginning of another section where an end is missing. -/
theorem C122_refused (n : ℕ) (ss : List (Section K)) (hs : ∀ s ∈ ss, s.Ok) (s : Section K) (h : s.Ok) (rest : List (Line K)) :
    convert n (file ss (s.front ++ .surface :: s.body ++ .other :: rest)) = none := by
  have h0 : sections false [] (s.front ++ .surface :: s.body ++ .other :: rest) = none := by
    rw [List.append_assoc, skip _ h.1, List.cons_append, sections, body_read h.2]
    rfl
  unfold convert
  rw [file_read ss hs, h0]
  rfl

/-! Two sections, with and without the right number in the header. -/

def one : Section ℕ := ⟨[.other, .pt 4 5 0], [.pt 4 5 3, .blank, .pt 4 6 2], [(4, 5, 3), (4, 6, 2)]⟩
def two : Section ℕ := ⟨[.blank, .fin], [.pt 7 7 1], [(7, 7, 1)]⟩

theorem one_ok : one.Ok := ⟨by unfold NoSurface; decide, .pt _ _ _ (.blank (.pt _ _ _ .nil))⟩
theorem two_ok : two.Ok := ⟨by unfold NoSurface; decide, .pt _ _ _ .nil⟩

example : (∀ s ∈ [one, two], s.Ok) ∧ NoSurface ([.other, .fin] : List (Line ℕ)) :=
  ⟨by simp [one_ok, two_ok], by unfold NoSurface; decide⟩

example : convert 2 (file [one, two] [.other, .fin]) = some [(4, 5, 3), (4, 6, 2), (7, 7, 1)] := by decide
example : convert 1 (file [one, two] [.other, .fin]) = none := by decide
example : convert 1 (file [one] (two.front ++ .surface :: two.body)) = some [(4, 5, 3), (4, 6, 2)] := by decide

end Verif.Sdf
