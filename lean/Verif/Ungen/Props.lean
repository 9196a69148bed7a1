import Verif.Ungen.Spec

/-!
# Reading files of polygons
-/

set_option linter.unusedSectionVars false

namespace Verif.Ungen

variable {K : Type} [DecidableEq K]

theorem ring_lines (ps : List (K × K)) (ss : List (ℕ × ℕ)) (poly vs : List (K × K)) (k : ℕ) (hk : ps.length = k + 1) (l : List (Line K)) :
    ring ps ss poly k (ringLines vs ++ l) = some (ps ++ vs, ss ++ (List.range vs.length).map (fun i => (k + i, k + i + 1)), poly ++ vs, l) := by
  induction vs generalizing ps ss poly k with
  | nil => simp [ringLines, ring]
  | cons v vs ih =>
    have e : ringLines (v :: vs) ++ l = .pt v.1 v.2 :: (ringLines vs ++ l) := rfl
    rw [e, ring, hk, ih (ps ++ [(v.1, v.2)]) _ _ (k + 1) (by simp [hk])]
    simp only [List.append_assoc, List.singleton_append, List.length_cons, List.range_succ_eq_map, List.map_cons, List.map_map]
    have e2 : ((fun i => (k + i, k + i + 1)) ∘ Nat.succ) = fun i => (k + 1 + i, k + 1 + i + 1) := by
      funext i
      simp only [Function.comp_apply]
      rw [show k + i.succ = k + 1 + i by omega]
    rw [e2]
    rfl

theorem sides_eq (k n : ℕ) : (List.range n).map (fun i => (k + i, k + i + 1)) ++ [(k + n, k)] = sides k (n + 1) := by
  unfold sides
  rw [List.range_succ, List.map_append]
  congr 1
  · apply List.map_congr_left
    intro i hi
    have := List.mem_range.mp hi
    rw [Nat.mod_eq_of_lt (by omega)]
    rfl
  · simp

theorem close_ring (P : List (K × K)) (S : List (ℕ × ℕ)) (v : K × K) (vs : List (K × K)) (hv : vs ≠ []) :
    close P.length (P ++ v :: vs) (S ++ (List.range vs.length).map (fun i => (P.length + i, P.length + i + 1))) (v :: vs) =
      some (P ++ corners (v :: vs), S ++ sides P.length (corners (v :: vs)).length, corners (v :: vs)) := by
  have hl : 0 < vs.length := List.length_pos_iff.mpr hv
  have e1 : (P ++ v :: vs)[P.length]? = (v :: vs).head? := by simp
  have e2 : (P ++ v :: vs)[(P ++ v :: vs).length - 1]? = (v :: vs).getLast? := by
    rw [List.getLast?_eq_getElem?, List.getElem?_append_right (by simp)]
    congr 1
    simp only [List.length_append, List.length_cons]
    omega
  unfold close corners
  rw [e1, e2]
  by_cases h : (v :: vs).head? = (v :: vs).getLast?
  · simp only [if_pos h]
    obtain ⟨m, hm⟩ : ∃ m, vs.length = m + 1 := ⟨vs.length - 1, by omega⟩
    have e3 : (P ++ v :: vs).dropLast = P ++ (v :: vs).dropLast := List.dropLast_append_of_ne_nil (by simp)
    have e4 : (S ++ (List.range vs.length).map (fun i => (P.length + i, P.length + i + 1))).dropLast =
        S ++ (List.range m).map (fun i => (P.length + i, P.length + i + 1)) := by
      rw [hm, List.range_succ, List.map_append, ← List.append_assoc]
      simp
    have ne : S ++ (List.range vs.length).map (fun i => (P.length + i, P.length + i + 1)) ≠ [] := by
      rw [hm]; simp [List.range_succ]
    cases hs : S ++ (List.range vs.length).map (fun i => (P.length + i, P.length + i + 1)) with
    | nil => exact absurd hs ne
    | cons a as =>
      simp only
      rw [← hs, e3, e4, List.append_assoc]
      have e5 : (P ++ v :: vs).length - 2 = P.length + m := by simp only [List.length_append, List.length_cons]; omega
      have e6 : (v :: vs).dropLast.length = m + 1 := by simp [hm]
      rw [e5, e6, sides_eq]
  · simp only [if_neg h]
    rw [List.append_assoc]
    have e5 : (P ++ v :: vs).length - 1 = P.length + vs.length := by simp only [List.length_append, List.length_cons]; omega
    rw [e5, sides_eq]
    rfl

theorem rings_file (n : ℕ) (o : Out K) (v : List (K × K)) (rs : List (Line K × List (K × K))) (rest : List (Line K)) (hn : rs.length < n)
    (hv : 2 ≤ v.length) (h2 : ∀ r ∈ rs, 2 ≤ r.2.length) (hh : ∀ r ∈ rs, r.1 ≠ .fin) :
    rings n o (ringLines v ++ file rs rest) = some ⟨o.points ++ corners v ++ (rs.map fun r => corners r.2).flatten,
      o.segments ++ sides o.points.length (corners v).length ++ allSides (o.points.length + (corners v).length) (rs.map fun r => corners r.2),
      o.polygons ++ corners v :: rs.map fun r => corners r.2⟩ := by
  induction rs generalizing n o v with
  | nil =>
    obtain ⟨n, rfl⟩ : ∃ m, n = m + 1 := ⟨n - 1, by simp at hn; omega⟩
    match v, hv with
    | p :: q :: vs, _ =>
      have e : ringLines (p :: q :: vs) ++ file [] rest = .pt p.1 p.2 :: (ringLines (q :: vs) ++ .fin :: rest) := rfl
      rw [e, rings, ring_lines _ _ _ _ _ (by simp)]
      simp only [List.append_assoc, List.singleton_append]
      rw [close_ring _ _ _ _ (by simp)]
      simp [allSides]
  | cons r rs ih =>
    obtain ⟨n, rfl⟩ : ∃ m, n = m + 1 := ⟨n - 1, by simp at hn; omega⟩
    match v, hv with
    | p :: q :: vs, _ =>
      have e : ringLines (p :: q :: vs) ++ file (r :: rs) rest = .pt p.1 p.2 :: (ringLines (q :: vs) ++ (r.1 :: (ringLines r.2 ++ file rs rest))) := by
        simp [ringLines, file]
      rw [e, rings, ring_lines _ _ _ _ _ (by simp)]
      simp only [List.append_assoc, List.singleton_append]
      rw [close_ring _ _ _ _ (by simp)]
      have hr := hh r List.mem_cons_self
      have hi := ih n ⟨o.points ++ corners (p :: q :: vs), o.segments ++ sides o.points.length (corners (p :: q :: vs)).length,
        o.polygons ++ [corners (p :: q :: vs)]⟩ r.2 (by simp at hn; omega) (h2 r List.mem_cons_self)
        (fun a ha => h2 a (List.mem_cons_of_mem _ ha)) (fun a ha => hh a (List.mem_cons_of_mem _ ha))
      have step : ∀ (h : Line K), h ≠ .fin → (match h :: (ringLines r.2 ++ file rs rest) with
          | [] => none
          | .fin :: _ => some (Out.mk (o.points ++ corners (p :: q :: vs)) (o.segments ++ sides o.points.length (corners (p :: q :: vs)).length)
              (o.polygons ++ [corners (p :: q :: vs)]))
          | _ :: l'' => rings n ⟨o.points ++ corners (p :: q :: vs), o.segments ++ sides o.points.length (corners (p :: q :: vs)).length,
              o.polygons ++ [corners (p :: q :: vs)]⟩ l'') =
          rings n ⟨o.points ++ corners (p :: q :: vs), o.segments ++ sides o.points.length (corners (p :: q :: vs)).length,
              o.polygons ++ [corners (p :: q :: vs)]⟩ (ringLines r.2 ++ file rs rest) := by
        intro h hne
        cases h with
        | fin => exact absurd rfl hne
        | pt x y => rfl
        | other => rfl
      refine (step r.1 hr).trans (hi.trans ?_)
      simp [allSides, List.append_assoc, Nat.add_assoc]

theorem file_length (rs : List (Line K × List (K × K))) (rest : List (Line K)) : rs.length < (file rs rest).length := by
  induction rs with
  | nil => simp [file]
  | cons r rs ih =>
    have e : file (r :: rs) rest = r.1 :: (ringLines r.2 ++ file rs rest) := by simp [file]
    rw [e]
    simp only [List.length_cons, List.length_append]
    omega

/-- C119. Polygons of a file come back with their corners; the segments are their sides, between corners of the same polygon. -/
theorem C119_read (r : Line K × List (K × K)) (rs : List (Line K × List (K × K))) (rest : List (Line K)) (h2 : ∀ a ∈ r :: rs, 2 ≤ a.2.length)
    (hh : ∀ a ∈ rs, a.1 ≠ .fin) :
    read (file (r :: rs) rest) = some ⟨((r :: rs).map fun a => corners a.2).flatten, allSides 0 ((r :: rs).map fun a => corners a.2),
      (r :: rs).map fun a => corners a.2⟩ := by
  have e : file (r :: rs) rest = r.1 :: (ringLines r.2 ++ file rs rest) := by simp [file]
  unfold read
  have hl := file_length (r :: rs) rest
  simp only [List.length_cons] at hl
  have := rings_file (file (r :: rs) rest).length ⟨[], [], []⟩ r.2 rs rest (by omega) (h2 r List.mem_cons_self)
    (fun a ha => h2 a (List.mem_cons_of_mem _ ha)) hh
  rw [e] at this ⊢
  rw [List.tail_cons, this]
  simp [allSides]

theorem mem_sides {k n : ℕ} {s : ℕ × ℕ} : s ∈ sides k n ↔ ∃ i, i < n ∧ s = (k + i, k + (i + 1) % n) := by
  unfold sides
  simp only [List.mem_map, List.mem_range]
  constructor
  · rintro ⟨i, hi, rfl⟩; exact ⟨i, hi, rfl⟩
  · rintro ⟨i, hi, rfl⟩; exact ⟨i, hi, rfl⟩

/-- C119. Every segment joins two neighbouring corners of one polygon, and every side of a polygon is a segment. -/
theorem C119_sides (k : ℕ) (ps : List (List (K × K))) (s : ℕ × ℕ) :
    s ∈ allSides k ps ↔ ∃ pre v post, ps = pre ++ v :: post ∧ ∃ i, i < v.length ∧
      s = (k + pre.flatten.length + i, k + pre.flatten.length + (i + 1) % v.length) ∧
      ps.flatten[s.1 - k]? = v[i]? ∧ ps.flatten[s.2 - k]? = v[(i + 1) % v.length]? := by
  have get : ∀ (pre : List (List (K × K))) (v : List (K × K)) (post : List (List (K × K))) (j : ℕ), j < v.length →
      (pre ++ v :: post).flatten[pre.flatten.length + j]? = v[j]? := by
    intro pre v post j hj
    rw [List.flatten_append, List.flatten_cons, List.getElem?_append_right (by omega), Nat.add_sub_cancel_left, List.getElem?_append_left hj]
  have base : s ∈ allSides k ps ↔ ∃ pre v post, ps = pre ++ v :: post ∧ ∃ i, i < v.length ∧
      s = (k + pre.flatten.length + i, k + pre.flatten.length + (i + 1) % v.length) := by
    induction ps generalizing k with
    | nil => simp [allSides]
    | cons v ps ih =>
      rw [allSides, List.mem_append, mem_sides, ih]
      constructor
      · rintro (⟨i, hi, rfl⟩ | ⟨pre, w, post, rfl, i, hi, rfl⟩)
        · exact ⟨[], v, ps, rfl, i, hi, rfl⟩
        · exact ⟨v :: pre, w, post, rfl, i, hi, by simp [Nat.add_assoc]⟩
      · rintro ⟨pre, w, post, e, i, hi, rfl⟩
        cases pre with
        | nil => cases e; exact .inl ⟨i, hi, rfl⟩
        | cons a pre => cases e; exact .inr ⟨pre, w, post, rfl, i, hi, by simp [Nat.add_assoc]⟩
  rw [base]
  constructor
  · rintro ⟨pre, v, post, rfl, i, hi, rfl⟩
    refine ⟨pre, v, post, rfl, i, hi, rfl, ?_, ?_⟩
    · rw [← get pre v post i hi]; congr 1; omega
    · rw [← get pre v post _ (Nat.mod_lt _ (by omega))]; congr 1; omega
  · rintro ⟨pre, v, post, e, i, hi, hs, -⟩
    exact ⟨pre, v, post, e, i, hi, hs⟩

theorem ring_taken (ps : List (K × K)) (ss : List (ℕ × ℕ)) (poly : List (K × K)) (prev : ℕ) (l l' : List (Line K)) (a : List (K × K))
    (b : List (ℕ × ℕ)) (c : List (K × K)) (h : ring ps ss poly prev l = some (a, b, c, l')) : ∃ vs, l = ringLines vs ++ l' := by
  induction l generalizing ps ss poly prev with
  | nil => cases h
  | cons x l ih =>
    cases x with
    | fin => cases h; exact ⟨[], rfl⟩
    | other => cases h
    | pt x y =>
      obtain ⟨vs, hvs⟩ := ih _ _ _ _ h
      exact ⟨(x, y) :: vs, by rw [hvs]; rfl⟩

theorem rings_taken (n : ℕ) (o o' : Out K) (l : List (Line K)) (h : rings n o l = some o') :
    ∃ v rs rest, l = ringLines v ++ file rs rest ∧ v ≠ [] ∧ ∀ r ∈ rs, r.2 ≠ [] ∧ r.1 ≠ .fin := by
  induction n generalizing o l with
  | zero => cases h
  | succ n ih =>
    cases l with
    | nil => cases h
    | cons x l =>
      cases x with
      | fin => cases h
      | other => cases h
      | pt x y =>
        rw [rings] at h
        cases hr : ring (o.points ++ [(x, y)]) o.segments [(x, y)] o.points.length l with
        | none => rw [hr] at h; cases h
        | some t =>
          obtain ⟨ps, ss, poly, l'⟩ := t
          obtain ⟨vs, rfl⟩ := ring_taken _ _ _ _ _ _ _ _ _ hr
          rw [hr] at h
          simp only at h
          cases hc : close o.points.length ps ss poly with
          | none => rw [hc] at h; cases h
          | some t =>
            obtain ⟨ps', ss', poly'⟩ := t
            rw [hc] at h
            have first : ∀ w, (Line.pt x y :: (ringLines vs ++ w)) = ringLines ((x, y) :: vs) ++ w := fun _ => rfl
            cases l' with
            | nil => cases h
            | cons y' l'' =>
              by_cases hy : y' = .fin
              · subst hy
                exact ⟨(x, y) :: vs, [], l'', first _, by simp, by simp⟩
              · have h' : rings n ⟨ps', ss', o.polygons ++ [poly']⟩ l'' = some o' := by
                  cases y' with
                  | fin => exact absurd rfl hy
                  | pt _ _ => exact h
                  | other => exact h
                obtain ⟨v, rs, rest, rfl, hv, hrs⟩ := ih _ _ h'
                refine ⟨(x, y) :: vs, (y', v) :: rs, rest, ?_, by simp, ?_⟩
                · rw [first]; simp [file]
                · intro r hm
                  rcases List.mem_cons.mp hm with rfl | hm
                  · exact ⟨hv, hy⟩
                  · exact hrs r hm

/-- C119. Nothing but files of polygons is read. -/
theorem C119_taken (lines : List (Line K)) (o : Out K) (h : read lines = some o) :
    ∃ r rs rest, lines = file (r :: rs) rest ∧ (∀ a ∈ r :: rs, a.2 ≠ []) ∧ ∀ a ∈ rs, a.1 ≠ .fin := by
  cases lines with
  | nil => cases h
  | cons x l =>
    obtain ⟨v, rs, rest, e, hv, hrs⟩ := rings_taken _ _ _ _ h
    simp only [List.tail_cons] at e
    refine ⟨(x, v), rs, rest, by rw [e]; simp [file], ?_, fun a ha => (hrs a ha).2⟩
    intro a ha
    rcases List.mem_cons.mp ha with rfl | ha
    · exact hv
    · exact (hrs a ha).1

/-- C119. A polygon with a single point takes the last side away from the polygon before it, and makes a segment to a point which is not there. -/
theorem C119_single (h1 h2 : Line K) (hh : h2 ≠ .fin) (a b c p : K × K) (hac : a ≠ c) (rest : List (Line K)) :
    read (file [(h1, [a, b, c]), (h2, [p])] rest) = some ⟨[a, b, c], [(0, 1), (1, 2), (2, 3)], [[a, b, c], []]⟩ := by
  have e : file [(h1, [a, b, c]), (h2, [p])] rest =
      [h1, .pt a.1 a.2, .pt b.1 b.2, .pt c.1 c.2, .fin, h2, .pt p.1 p.2, .fin, .fin] ++ rest := by simp [file, ringLines]
  rw [e]
  cases h2 with
  | fin => exact absurd rfl hh
  | pt x y => simp [read, rings, ring, close, hac]
  | other => simp [read, rings, ring, close, hac]

/-- C119. A single polygon with a single point is refused. -/
theorem C119_point (h1 : Line K) (p : K × K) (rest : List (Line K)) : read (file [(h1, [p])] rest) = none := by
  have e : file [(h1, [p])] rest = [h1, .pt p.1 p.2, .fin, .fin] ++ rest := by simp [file, ringLines]
  rw [e]
  simp [read, rings, ring, close]

end Verif.Ungen
