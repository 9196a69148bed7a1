import Verif.Gauge.Props

/-! # C98: tables of depth and velocity, and reading the gauges -/

namespace Verif.Gauge

set_option linter.unusedSectionVars false

open Verif.Polygon (Pt IsSqrt)
open Verif.Interp (Mesh)
open Verif.FileFn

variable {K : Type*} [Field K] [LinearOrder K] [IsStrictOrderedRing K]

variable {mk : List (Pt K) → List (ℕ × ℕ × ℕ) → Option (Mesh K)}

/-- The three entries. -/
def triple : List (Cell K) → Cell K × Cell K × Cell K
  | [w, z, uh, vh] => (depth w z, velocity w z uh, velocity w z vh)
  | _ => (.nan, .nan, .nan)

theorem rowsAt_spec (F : Fn K) (t : K) (c : ℕ → List (Cell K)) : ∀ (is : List ℕ), (∀ i ∈ is, (c i).length = 4 ∧ ∀ hist,
    ((F.after hist).call t (some i)).map Prod.snd = .ok (c i)) → ∀ hist, ∃ hist', rowsAt t (F.after hist) is = .ok (F.after hist', is.map fun i => triple (c i)) := by
  intro is
  induction is with
  | nil => exact fun _ hist => ⟨hist, rfl⟩
  | cons i is ih =>
    intro h hist
    obtain ⟨h1, h2⟩ := h i (by simp)
    have hr := h2 hist
    cases hc : (F.after hist).call t (some i) with
    | error e => rw [hc] at hr; simp [Except.map] at hr
    | ok G =>
      obtain ⟨G, c'⟩ := G
      rw [hc] at hr
      obtain rfl : c' = c i := by simpa [Except.map] using hr
      have hG : G = F.after (hist ++ [(t, some i)]) := by rw [after_append, Fn.after, hc]; rfl
      obtain ⟨hist', h3⟩ := ih (fun j hj => h j (by simp [hj])) (hist ++ [(t, some i)])
      refine ⟨hist', ?_⟩
      rw [List.map_cons]
      match hci : c i, h1 with
      | [w, z, uh, vh], _ =>
        unfold rowsAt
        rw [hc, hci]
        simp only
        rw [hG, h3]
        rfl

theorem threeFiles_spec (F : Fn K) (n : ℕ) (c : K → ℕ → List (Cell K)) : ∀ (ts : List K), (∀ t ∈ ts, ∀ i < n, (c t i).length = 4 ∧ ∀ hist,
    ((F.after hist).call t (some i)).map Prod.snd = .ok (c t i)) → ∀ hist, threeFiles n (F.after hist) ts =
      .ok (ts.map fun t => (.num t :: (List.range n).map (fun i => (triple (c t i)).1), .num t :: (List.range n).map (fun i => (triple (c t i)).2.1),
        .num t :: (List.range n).map fun i => (triple (c t i)).2.2)) := by
  intro ts
  induction ts with
  | nil => exact fun _ hist => rfl
  | cons t ts ih =>
    intro h hist
    obtain ⟨hist', h1⟩ := rowsAt_spec F t (c t) (List.range n) (fun i hi => h t (by simp) i (List.mem_range.1 hi)) hist
    unfold threeFiles
    rw [h1]
    simp only
    rw [ih (fun u hu => h u (by simp [hu])) hist']
    simp [List.map_map, Function.comp_def]

/-- `c` is the velocity component where the depth is `h` and the momentum `m`. -/
def Velocity (h m : K) (c : Cell K) : Prop := (1 / 10 ^ 12 < h → ∃ v, v * h = m ∧ c = .num v) ∧ (h ≤ 1 / 10 ^ 12 → c = .num 0)

/-- **C98.** The tables of depths and velocities hold one row for each used result, with its time counted from the start of the file, and one column
for each point; off the mesh the depth is not a number and the velocities are infinite. -/
theorem C98_three {s : Src K} (hr : Reads mk s.f core s.x s.T s.vals s.m s.ts) (hT : s.T ≠ []) (sq : K → K) (hs : IsSqrt sq) (pts : List (Pt K))
    (n : ℕ) (hn : 0 < n) (idx : List ℕ) (hk : Kept s.T s.f.starttime n none idx) (hon : ∀ P ∈ pts, s.On sq P ∨ s.Off sq P) :
    ∃ rows, interpolateCsv sq mk s.f pts n false false = .ok rows ∧ rows.length = idx.length ∧ ∀ (k i : ℕ), idx[k]? = some i → ∃ d vx vy,
      rows[k]? = some (.num (s.T.getD i 0) :: d, .num (s.T.getD i 0) :: vx, .num (s.T.getD i 0) :: vy) ∧
      d.length = pts.length ∧ vx.length = pts.length ∧ vy.length = pts.length ∧ ∀ (p : ℕ) (P : Pt K), pts[p]? = some P →
        (s.On sq P ∧ ∃ abc w z uh vh cx cy, Around s.f s.x abc P ∧ s.At false abc P i "stage" w ∧ s.At false abc P i "elevation" z ∧
          s.At false abc P i "xmomentum" uh ∧ s.At false abc P i "ymomentum" vh ∧ d[p]? = some (.num (w - z)) ∧ vx[p]? = some cx ∧
          vy[p]? = some cy ∧ Velocity (w - z) uh cx ∧ Velocity (w - z) vh cy) ∨
        (s.Off sq P ∧ d[p]? = some .nan ∧ vx[p]? = some .inf ∧ vy[p]? = some .inf) := by
  obtain ⟨F, h1, h2, h3, h4⟩ := open_all hr hT sq hs pts n hn false idx hk
  have hin : ∀ i ∈ idx, s.T[i]? = some (s.T.getD i 0) := by
    intro i hi
    obtain ⟨t, ht, -⟩ := (hk.mem i).1 hi
    rw [List.getD_eq_getElem?_getD, ht]
    rfl
  have hvel : ∀ h m : K, Velocity h m (.num (if h > 1 / 10 ^ 12 then m / h else 0)) := by
    intro h m
    constructor
    · intro hh
      have : 0 < h := lt_trans (by positivity) hh
      rw [if_pos hh]
      exact ⟨m / h, div_mul_cancel₀ _ this.ne', rfl⟩
    · intro hh
      rw [if_neg (not_lt.2 hh)]
  have hcell : ∀ (t : K) (p : ℕ), ∃ c : List (Cell K), p < pts.length → ∀ i ∈ idx, s.T.getD i 0 = t → c.length = 4 ∧
      (∀ hist, ((F.after hist).call t (some p)).map Prod.snd = .ok c) ∧ ∀ P, pts[p]? = some P →
        (s.On sq P ∧ ∃ abc w z uh vh cx cy, Around s.f s.x abc P ∧ s.At false abc P i "stage" w ∧ s.At false abc P i "elevation" z ∧
          s.At false abc P i "xmomentum" uh ∧ s.At false abc P i "ymomentum" vh ∧ (triple c).1 = .num (w - z) ∧ (triple c).2.1 = cx ∧
          (triple c).2.2 = cy ∧ Velocity (w - z) uh cx ∧ Velocity (w - z) vh cy) ∨
        (s.Off sq P ∧ (triple c).1 = .nan ∧ (triple c).2.1 = .inf ∧ (triple c).2.2 = .inf) := by
    intro t p
    by_cases hp : p < pts.length
    swap
    · exact ⟨[], fun h => absurd h hp⟩
    by_cases hi : ∃ i ∈ idx, s.T.getD i 0 = t
    swap
    · exact ⟨[], fun _ i hi' hit => absurd ⟨i, hi', hit⟩ hi⟩
    obtain ⟨i, hi, rfl⟩ := hi
    have huniq : ∀ j ∈ idx, s.T.getD j 0 = s.T.getD i 0 → j = i := by
      intro j hj hji
      have a := hin j hj
      have b := hin i hi
      rw [hji] at a
      rcases lt_trichotomy j i with h | h | h
      · exact absurd (hr.increasing _ _ _ _ h a b) (lt_irrefl _)
      · exact h
      · exact absurd (hr.increasing _ _ _ _ h b a) (lt_irrefl _)
    have hP : pts[p]? = some pts[p] := List.getElem?_eq_getElem hp
    obtain ⟨g1, g2⟩ := h4 p _ hP
    rcases hon _ (List.getElem_mem hp) with hh | hh
    · obtain ⟨abc, k1, k2⟩ := g1 hh
      obtain ⟨v, l1, l2, l3⟩ := k2 i hi
      obtain ⟨w, w1, w2⟩ := l3 0 "stage" rfl
      obtain ⟨z, z1, z2⟩ := l3 1 "elevation" rfl
      obtain ⟨uh, u1, u2⟩ := l3 2 "xmomentum" rfl
      obtain ⟨vh, v1, v2⟩ := l3 3 "ymomentum" rfl
      have hv : v = [w, z, uh, vh] := by
        have hl : v.length = 4 := l1
        match v, hl with
        | [a, b, c, d], _ =>
          simp at w1 z1 u1 v1
          rw [w1, z1, u1, v1]
      subst hv
      refine ⟨[.num w, .num z, .num uh, .num vh], fun _ j hj hji => ⟨rfl, l2, fun P hP' => ?_⟩⟩
      rw [hP] at hP'
      obtain rfl := Option.some.inj hP'
      rw [huniq j hj hji]
      exact Or.inl ⟨hh, abc, w, z, uh, vh, _, _, k1, w2, z2, u2, v2, rfl, rfl, rfl, hvel _ _, hvel _ _⟩
    · refine ⟨[.inf, .inf, .inf, .inf], fun _ j hj hji => ⟨rfl, fun hist => g2 hh i hi hist, fun P hP' => ?_⟩⟩
      rw [hP] at hP'
      obtain rfl := Option.some.inj hP'
      exact Or.inr ⟨hh, rfl, rfl, rfl⟩
  choose c hc using hcell
  have hfiles := threeFiles_spec F pts.length c F.time (fun t ht p hp => by
    rw [h3, List.mem_map] at ht
    obtain ⟨i, hi, rfl⟩ := ht
    obtain ⟨q1, q2, -⟩ := hc _ p hp i hi rfl
    exact ⟨q1, q2⟩) []
  have hB : interpolateCsv sq mk s.f pts n false false = threeFiles pts.length (F.after []) F.time := by
    unfold interpolateCsv
    rw [h1]
    rfl
  refine ⟨_, hB.trans hfiles, ?_, ?_⟩
  · rw [List.length_map, h3, List.length_map]
  · intro k i hki
    have hi := List.mem_of_getElem? hki
    refine ⟨_, _, _, by rw [List.getElem?_map, h3, List.getElem?_map, hki, Option.map_some, Option.map_some], by simp, by simp, by simp, ?_⟩
    intro p P hP
    have hp := (List.getElem?_eq_some_iff.1 hP).1
    simp only [List.getElem?_map, List.getElem?_range hp, Option.map_some, Option.some.injEq]
    exact (hc _ p hp i hi rfl).2.2 P hP

/-- **C98.** With a file for the stage or the Froude number nothing is written: the function always fails. -/
theorem C98_stage_file (sq : K → K) (f : File K) (pts : List (Pt K)) (n : ℕ) (st fr : Bool) (h : st = true ∨ fr = true) :
    ∃ e, interpolateCsv sq mk f pts n st fr = .error e := by
  unfold interpolateCsv
  cases fileFunction sq mk f none (some core) { points := some pts, thinning := n } with
  | error e => exact ⟨e, rfl⟩
  | ok r =>
    refine ⟨.crash, ?_⟩
    rcases h with rfl | rfl
    · rfl
    · cases st <;> rfl

/-! ## Reading the gauges -/

theorem lastCol_spec (s : String) (row : List String) : (∀ j, lastCol s row = some j → (∃ v, row[j]? = some v ∧ strip v = s) ∧
    ∀ k v, j < k → row[k]? = some v → strip v ≠ s) ∧
    (lastCol s row = none → ∀ v ∈ row, strip v ≠ s) := by
  unfold lastCol
  have key : ∀ n, n ≤ row.length → ∀ r, (List.range n).foldl (fun acc j => if strip (row.getD j "") = s then some j else acc) none = r →
      (∀ j, r = some j → (∃ v, row[j]? = some v ∧ strip v = s) ∧ ∀ k v, j < k → k < n → row[k]? = some v → strip v ≠ s) ∧
      (r = none → ∀ k v, k < n → row[k]? = some v → strip v ≠ s) := by
    intro n
    induction n with
    | zero => intro _ r hr; subst hr; exact ⟨fun j h => absurd h (by simp), fun _ k v h => absurd h (by omega)⟩
    | succ n ih =>
      intro hn r hr
      rw [List.range_succ, List.foldl_append] at hr
      simp only [List.foldl_cons, List.foldl_nil] at hr
      have hrow : row[n]? = some (row.getD n "") := by
        rw [List.getD_eq_getElem?_getD, List.getElem?_eq_getElem (by omega)]
        rfl
      obtain ⟨i1, i2⟩ := ih (by omega) _ rfl
      by_cases hv : strip (row.getD n "") = s
      · rw [if_pos hv] at hr
        subst hr
        refine ⟨fun j hj => ?_, fun h => absurd h (by simp)⟩
        obtain rfl := Option.some.inj hj
        exact ⟨⟨_, hrow, hv⟩, fun k v h1 h2 => absurd h2 (by omega)⟩
      · rw [if_neg hv] at hr
        refine ⟨fun j hj => ?_, fun hno k v hk hkv => ?_⟩
        · rw [hj] at hr
          obtain ⟨a1, a2⟩ := i1 j hr
          refine ⟨a1, fun k v h1 h2 h3 => ?_⟩
          by_cases hkn : k = n
          · subst hkn
            rw [hrow] at h3
            rw [← Option.some.inj h3]
            exact hv
          · exact a2 k v h1 (by omega) h3
        · rw [hno] at hr
          by_cases hkn : k = n
          · subst hkn
            rw [hrow] at hkv
            rw [← Option.some.inj hkv]
            exact hv
          · exact i2 hr k v (by omega) hkv
  obtain ⟨k1, k2⟩ := key row.length le_rfl _ rfl
  refine ⟨fun j hj => ?_, fun h v hv => ?_⟩
  · obtain ⟨a1, a2⟩ := k1 j hj
    exact ⟨a1, fun k v h1 h2 => a2 k v h1 (List.getElem?_eq_some_iff.1 h2).1 h2⟩
  · obtain ⟨k, hk⟩ := List.getElem?_of_mem hv
    exact k2 h k v (List.getElem?_eq_some_iff.1 hk).1 hk

/-- Column `j` is headed `t`, perhaps with white space around it. -/
def Headed (head : List String) (j : ℕ) (t : String) : Prop :=
  ∃ (s : String) (a b : List Char), head[j]? = some s ∧ s.toList = a ++ t.toList ++ b ∧ (∀ c ∈ a, c.isWhitespace = true) ∧
    ∀ c ∈ b, c.isWhitespace = true

theorem white_parts : ∀ s : List Char, ∃ a, s = a ++ s.dropWhile Char.isWhitespace ∧ ∀ c ∈ a, c.isWhitespace = true
  | [] => ⟨[], rfl, by simp⟩
  | x :: s => by
    obtain ⟨a, ha, hs⟩ := white_parts s
    by_cases hx : x.isWhitespace = true
    · refine ⟨x :: a, ?_, ?_⟩
      · rw [List.dropWhile_cons, if_pos hx, List.cons_append, ← ha]
      · intro c hc
        rcases List.mem_cons.1 hc with rfl | hc
        · exact hx
        · exact hs c hc
    · refine ⟨[], ?_, by simp⟩
      rw [List.dropWhile_cons, if_neg hx, List.nil_append]

theorem strip_headed {head : List String} {j : ℕ} {v t : String} (hv : head[j]? = some v) (h : strip v = t) : Headed head j t := by
  obtain ⟨a, ha, hsa⟩ := white_parts v.toList
  obtain ⟨b, hb, hsb⟩ := white_parts (v.toList.dropWhile Char.isWhitespace).reverse
  refine ⟨v, a, b.reverse, hv, ?_, hsa, fun c hc => hsb c (by simpa using hc)⟩
  have ht : t.toList = ((v.toList.dropWhile Char.isWhitespace).reverse.dropWhile Char.isWhitespace).reverse := by
    rw [← h]
    unfold strip
    rw [String.toList_ofList]
  have hr := congrArg List.reverse hb
  rw [List.reverse_reverse, List.reverse_append] at hr
  rw [ht, List.append_assoc, ← hr]
  exact ha

theorem dropWhile_white : ∀ (a t : List Char), (∀ c ∈ a, c.isWhitespace = true) →
    (a ++ t).dropWhile Char.isWhitespace = t.dropWhile Char.isWhitespace
  | [], _, _ => rfl
  | x :: a, t, h => by
    rw [List.cons_append, List.dropWhile_cons, if_pos (h x (by simp))]
    exact dropWhile_white a t fun c hc => h c (by simp [hc])

theorem headed_strip {head : List String} {j : ℕ} {t : String} (h : Headed head j t) (x y : Char) (u w : List Char)
    (h1 : t.toList = x :: u) (h2 : t.toList = w ++ [y]) (hx : x.isWhitespace = false) (hy : y.isWhitespace = false) :
    ∃ v, head[j]? = some v ∧ strip v = t := by
  obtain ⟨s, a, b, hs, he, ha, hb⟩ := h
  refine ⟨s, hs, ?_⟩
  unfold strip
  have e1 : s.toList.dropWhile Char.isWhitespace = t.toList ++ b := by
    rw [he, List.append_assoc, dropWhile_white _ _ ha, h1, List.cons_append, List.dropWhile_cons, if_neg (by simp [hx])]
  have e2 : (s.toList.dropWhile Char.isWhitespace).reverse.dropWhile Char.isWhitespace = t.toList.reverse := by
    rw [e1, List.reverse_append, dropWhile_white _ _ (by simpa using hb), h2, List.reverse_append, List.reverse_singleton,
      List.singleton_append, List.dropWhile_cons, if_neg (by simp [hy])]
  rw [e2, List.reverse_reverse, String.ofList_toList]

theorem lastCol_found {head : List String} {j : ℕ} {t : String} (h : Headed head j t) (x y : Char) (u w : List Char)
    (h1 : t.toList = x :: u) (h2 : t.toList = w ++ [y]) (hx : x.isWhitespace = false) (hy : y.isWhitespace = false) :
    ∃ k, lastCol t head = some k ∧ k < head.length ∧ Headed head k t := by
  obtain ⟨v, hv, hs⟩ := headed_strip h x y u w h1 h2 hx hy
  cases hl : lastCol t head with
  | none => exact absurd hs ((lastCol_spec t head).2 hl v (List.mem_of_getElem? hv))
  | some k =>
    obtain ⟨v', hv', hs'⟩ := ((lastCol_spec t head).1 k hl).1
    exact ⟨k, rfl, (List.getElem?_eq_some_iff.1 hv').1, strip_headed hv' hs'⟩

/-- **C98.** A table of gauges with the three headings, in any order and with any white space around them, with rows long enough and with
coordinates which are numbers, can be read. -/
theorem C98_gauges_found (num : String → Option K) (head : List String) (rows : List (List String)) (i j k : ℕ)
    (he : Headed head i "easting") (hn : Headed head j "northing") (hm : Headed head k "name")
    (hl : ∀ row ∈ rows, head.length ≤ row.length)
    (hx : ∀ row ∈ rows, ∀ (c : ℕ) (x : String), row[c]? = some x → Headed head c "easting" ∨ Headed head c "northing" → (num x).isSome) :
    (readGauges num (head :: rows)).isSome := by
  obtain ⟨a, ha, hal, hah⟩ := lastCol_found he 'e' 'g' "asting".toList "eastin".toList (by decide) (by decide) (by decide) (by decide)
  obtain ⟨b, hb, hbl, hbh⟩ := lastCol_found hn 'n' 'g' "orthing".toList "northin".toList (by decide) (by decide) (by decide) (by decide)
  obtain ⟨c, hc, hcl, -⟩ := lastCol_found hm 'n' 'e' "ame".toList "nam".toList (by decide) (by decide) (by decide) (by decide)
  show (rows.mapM (readRow num (lastCol "easting" head) (lastCol "northing" head) (lastCol "name" head))).isSome
  rw [ha, hb, hc]
  induction rows with
  | nil => rfl
  | cons row rows ih =>
    have ih := ih (fun r hr => hl r (by simp [hr])) (fun r hr => hx r (by simp [hr]))
    have hrow := hl row (by simp)
    have ga : row[a]? = some row[a] := List.getElem?_eq_getElem (by omega)
    have gb : row[b]? = some row[b] := List.getElem?_eq_getElem (by omega)
    have gc : row[c]? = some row[c] := List.getElem?_eq_getElem (by omega)
    obtain ⟨x, hxa⟩ := Option.isSome_iff_exists.1 (hx row (by simp) a _ ga (.inl hah))
    obtain ⟨y, hxb⟩ := Option.isSome_iff_exists.1 (hx row (by simp) b _ gb (.inr hbh))
    obtain ⟨r, hr⟩ := Option.isSome_iff_exists.1 ih
    rw [List.mapM_cons, hr]
    unfold readRow
    simp only [Option.bind_some]
    rw [ga, gb, gc]
    simp only [Option.bind_some]
    rw [hxa, hxb]
    rfl

/-- **C98.** The gauges read are those of the rows below the heading, one per row and in that order: name and coordinates from the columns headed
`name`, `easting` and `northing`, wherever these are. -/
theorem C98_gauges (num : String → Option K) (head : List String) (rows : List (List String)) (g : List (String × Pt K))
    (h : readGauges num (head :: rows) = some g) : g.length = rows.length ∧ ∀ (k : ℕ) (row : List String) (n : String) (P : Pt K),
      rows[k]? = some row → g[k]? = some (n, P) → ∃ (a b c : ℕ) (xa xb : String), Headed head a "easting" ∧ Headed head b "northing" ∧
        Headed head c "name" ∧
        row[a]? = some xa ∧ num xa = some P.x ∧ row[b]? = some xb ∧ num xb = some P.y ∧ row[c]? = some n := by
  obtain ⟨h1, h2⟩ := mapM_get h
  refine ⟨h1.symm, fun k row n P hk hg => ?_⟩
  obtain ⟨v, h3, h4⟩ := h2 k row hk
  rw [hg] at h3
  obtain rfl := Option.some.inj h3
  unfold readRow at h4
  cases ha : lastCol "easting" head with
  | none => rw [ha] at h4; simp at h4
  | some a =>
    cases hb : lastCol "northing" head with
    | none => rw [hb] at h4; simp at h4
    | some b =>
      cases hc : lastCol "name" head with
      | none => rw [hc] at h4; simp at h4
      | some c =>
        rw [ha, hb, hc] at h4
        obtain ⟨va, a1, a2⟩ := ((lastCol_spec "easting" head).1 a ha).1
        obtain ⟨vb, b1, b2⟩ := ((lastCol_spec "northing" head).1 b hb).1
        obtain ⟨vc, c1, c2⟩ := ((lastCol_spec "name" head).1 c hc).1
        simp only [Option.bind_some] at h4
        cases hra : row[a]? with
        | none => rw [hra] at h4; simp at h4
        | some xa =>
          cases hrb : row[b]? with
          | none => rw [hrb] at h4; simp at h4
          | some xb =>
            cases hrc : row[c]? with
            | none => rw [hrc] at h4; simp at h4
            | some xc =>
              rw [hra, hrb, hrc] at h4
              simp only [Option.bind_some] at h4
              cases hna : num xa with
              | none => rw [hna] at h4; simp at h4
              | some x =>
                cases hnb : num xb with
                | none => rw [hnb] at h4; simp at h4
                | some y =>
                  rw [hna, hnb] at h4
                  simp only [Option.some.injEq, Prod.mk.injEq] at h4
                  obtain ⟨rfl, rfl⟩ := h4
                  exact ⟨a, b, c, xa, xb, strip_headed a1 a2, strip_headed b1 b2, strip_headed c1 c2, hra, hna, hrb, hnb, hrc⟩

end Verif.Gauge
