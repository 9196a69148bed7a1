import Verif.Dem.Lemmas

/-! # Helper lemmas for the raster export: blocks, extent, change of origin -/

set_option linter.unusedSectionVars false

namespace Verif.Dem

open Verif.Polygon Verif.Raster

variable {K : Type*} [Field K] [LinearOrder K] [IsStrictOrderedRing K]

/-! ## Blocks -/

/-- The value wanted at point `k`. -/
def want (expr : List K → K) (red : Reduction K) (nt : ℕ) (vars : List (Var K)) (k : ℕ) : Option K :=
  if vars.any Var.isTimed then red.apply ((List.range nt).map fun t => expr (vars.map (Var.at t k))) else some (expr (vars.map (Var.at 0 k)))

theorem mapM_some {α β : Type*} (f : α → β) (l : List α) : (l.mapM fun a => some (f a)) = some (l.map f) := by
  induction l with
  | nil => rfl
  | cons a l ih => simp [List.mapM_cons, ih]

theorem block_eq (expr : List K → K) (red : Reduction K) (nt m : ℕ) (vars : List (Var K)) :
    block expr red nt m vars = (List.range m).mapM (want expr red nt vars) := by
  unfold block
  by_cases h : vars.any Var.isTimed = true
  · rw [if_pos h]
    congr 1
    funext k
    unfold want
    rw [if_pos h]
  · rw [if_neg h, ← mapM_some]
    congr 1
    funext k
    unfold want
    rw [if_neg h]

theorem slice_get {r : List K} {s e k : ℕ} (h : s + k < e) : ((r.take e).drop s).getD k 0 = r.getD (s + k) 0 := by
  simp [List.getD_eq_getElem?_getD, List.getElem?_drop, h]

theorem at_slice {s e k : ℕ} (h : s + k < e) (t : ℕ) (v : Var K) : (v.slice s e).at t k = v.at t (s + k) := by
  cases v with
  | timed v =>
    show ((v.map fun r => (r.take e).drop s).getD t []).getD k 0 = (v.getD t []).getD (s + k) 0
    rw [← slice_get h]
    congr 1
    simp only [List.getD_eq_getElem?_getD, List.getElem?_map]
    cases v[t]? <;> simp
  | static v => exact slice_get h

theorem isTimed_slice (s e : ℕ) (v : Var K) : (v.slice s e).isTimed = v.isTimed := by cases v <;> rfl

theorem want_slice (expr : List K → K) (red : Reduction K) (nt : ℕ) (vars : List (Var K)) {s e k : ℕ} (h : s + k < e) :
    want expr red nt (vars.map (Var.slice s e)) k = want expr red nt vars (s + k) := by
  unfold want
  have h1 : (vars.map (Var.slice s e)).any Var.isTimed = vars.any Var.isTimed := by
    rw [List.any_map]; congr 1; funext v; exact isTimed_slice s e v
  have h2 : ∀ t, (vars.map (Var.slice s e)).map (Var.at t k) = vars.map (Var.at t (s + k)) := by
    intro t; rw [List.map_map]; congr 1; funext v; exact at_slice h t v
  simp only [h1, h2]

theorem mapM_congr {α β : Type*} {f g : α → Option β} {l : List α} (h : ∀ a ∈ l, f a = g a) : l.mapM f = l.mapM g := by
  induction l with
  | nil => rfl
  | cons a l ih =>
    rw [List.mapM_cons, List.mapM_cons, h a List.mem_cons_self, ih fun b hb => h b (List.mem_cons_of_mem _ hb)]

theorem mapM_length {α β : Type*} {f : α → Option β} {l : List α} {r : List β} (h : l.mapM f = some r) : r.length = l.length := by
  induction l generalizing r with
  | nil => simp at h; subst h; rfl
  | cons a l ih =>
    rw [List.mapM_cons] at h
    cases ha : f a with
    | none => rw [ha] at h; simp at h
    | some b =>
      rw [ha] at h
      cases hl : l.mapM f with
      | none => rw [hl] at h; simp at h
      | some r' =>
        rw [hl] at h
        simp at h
        subst h
        simp [ih hl]

theorem mapM_get {α β : Type*} {f : α → Option β} {l : List α} {r : List β} (h : l.mapM f = some r) {i : ℕ} {a : α} (hi : l[i]? = some a) : f a = r[i]? := by
  induction l generalizing r i with
  | nil => simp at hi
  | cons b l ih =>
    rw [List.mapM_cons] at h
    cases hb : f b with
    | none => rw [hb] at h; simp at h
    | some y =>
      rw [hb] at h
      cases hl : l.mapM f with
      | none => rw [hl] at h; simp at h
      | some r' =>
        rw [hl] at h
        simp at h
        subst h
        cases i with
        | zero => simp at hi; subst hi; simp [hb]
        | succ i => simp at hi ⊢; exact ih hl hi

theorem mapM_isSome {α β : Type*} {f : α → Option β} {l : List α} (h : ∀ a ∈ l, (f a).isSome) : (l.mapM f).isSome := by
  induction l with
  | nil => rfl
  | cons a l ih =>
    obtain ⟨y, hy⟩ := Option.isSome_iff_exists.1 (h a List.mem_cons_self)
    obtain ⟨r, hr⟩ := Option.isSome_iff_exists.1 (ih fun b hb => h b (List.mem_cons_of_mem _ hb))
    simp [List.mapM_cons, hy, hr]

theorem blocks_eq (expr : List K → K) (red : Reduction K) (nt n : ℕ) {b : ℕ} (hb : 0 < b) (vars : List (Var K)) (fuel s : ℕ) (result : List K)
    (hf : n - s ≤ fuel) (hl : result.length = n) (hr : (List.range (min s n)).mapM (want expr red nt vars) = some (result.take s)) :
    blocks expr red nt n b vars fuel s result = (List.range n).mapM (want expr red nt vars) := by
  induction fuel generalizing s result with
  | zero =>
    have : n ≤ s := by omega
    rw [min_eq_right this, List.take_of_length_le (by omega)] at hr
    rw [hr]; rfl
  | succ fuel ih =>
    unfold blocks
    split_ifs with hs
    · simp only
      rw [block_eq, mapM_congr (g := fun k => want expr red nt vars (s + k))
        (fun k hk => want_slice expr red nt vars (by rw [List.mem_range] at hk; omega))]
      have split : (List.range (min (s + b) n)).mapM (want expr red nt vars) =
          ((List.range s).mapM (want expr red nt vars)).bind fun l =>
            ((List.range (min (s + b) n - s)).mapM fun k => want expr red nt vars (s + k)).map fun l' => l ++ l' := by
        have e : min (s + b) n = s + (min (s + b) n - s) := by omega
        conv_lhs => rw [e, List.range_add, List.mapM_append, List.mapM_map]
        rw [show (want expr red nt vars ∘ fun x => s + x) = fun k => want expr red nt vars (s + k) from rfl]
        cases (List.range s).mapM (want expr red nt vars) with
        | none => rfl
        | some l =>
          cases (List.mapM (fun k => want expr red nt vars (s + k)) (List.range (min (s + b) n - s))) with
          | none => rfl
          | some l' => rfl
      rw [min_eq_left hs.le] at hr
      rw [hr] at split
      simp only [Option.bind_some] at split
      cases hblk : (List.range (min (s + b) n - s)).mapM fun k => want expr red nt vars (s + k) with
      | none =>
        rw [hblk] at split
        simp only [Option.map_none] at split
        show none = _
        have e : n = min (s + b) n + (n - min (s + b) n) := by omega
        conv_rhs => rw [e, List.range_add, List.mapM_append]
        rw [split]
        rfl
      | some res =>
        rw [hblk] at split
        simp only [Option.map_some] at split
        simp only [Option.bind_some]
        have hlen := mapM_length hblk
        rw [List.length_range] at hlen
        apply ih
        · omega
        · simp only [List.length_append, List.length_take, List.length_drop, hlen, hl]; omega
        · rw [split]
          congr 1
          have hX : (result.take s ++ res).length = min (s + b) n := by rw [List.length_append, List.length_take, hl, hlen]; omega
          by_cases hsb : s + b ≤ n
          · rw [List.take_append_of_le_length (by rw [hX]; omega), List.take_of_length_le (l := List.take s result ++ res) (by rw [hX]; omega)]
          · have : result.drop (min (s + b) n) = [] := List.drop_eq_nil_of_le (by omega)
            rw [this, List.append_nil, List.take_of_length_le (l := List.take s result ++ res) (by rw [hX]; omega)]
    · have : n ≤ s := by omega
      rw [min_eq_right this, List.take_of_length_le (by omega)] at hr
      rw [hr]

theorem values_eq (expr : List K → K) (red : Reduction K) (nt n : ℕ) {b : ℕ} (hb : 0 < b) (vars : List (Var K)) :
    values expr red nt n b vars = (List.range n).mapM (want expr red nt vars) :=
  blocks_eq expr red nt n hb vars n 0 _ (by omega) (List.length_replicate ..) (by simp)

theorem reduced_of {red : Reduction K} {s : List K} {v : K} (h : red.apply s = some v) : Reduced red s v := by
  cases red with
  | fn f => exact (Option.some.inj h).symm
  | index i =>
    unfold Reduction.apply at h
    simp only at h
    split_ifs at h with h1 h2
    · exact Or.inl ⟨i.toNat, by omega, h⟩
    · exact Or.inr ⟨(s.length + i).toNat, by omega, by omega, h⟩

theorem nodeValue_of {r : Results K} {expr : List K → K} {red : Reduction K} {i : ℕ} {v : K} (h : want expr red r.nt r.vars i = some v) :
    NodeValue r expr red i v := by
  unfold want at h
  constructor
  · rintro ⟨q, hq, ht⟩
    rw [if_pos (List.any_eq_true.2 ⟨q, hq, ht⟩)] at h
    exact reduced_of h
  · intro hn
    rw [if_neg (by rw [List.any_eq_true]; rintro ⟨q, hq, ht⟩; rw [hn q hq] at ht; exact Bool.noConfusion ht)] at h
    exact (Option.some.inj h).symm

/-! ## Extent -/

theorem least_is {l : List K} (h : l ≠ []) : Least (least l) l := by
  cases l with
  | nil => exact absurd rfl h
  | cons a l =>
    show Least (l.foldl _ a) (a :: l)
    clear h
    induction l generalizing a with
    | nil => exact ⟨by simp, by simp⟩
    | cons b l ih =>
      rw [List.foldl_cons]
      obtain ⟨h1, h2⟩ := ih (if b < a then b else a)
      constructor
      · rcases List.mem_cons.1 h1 with h | h
        · rw [h]; split_ifs <;> simp
        · exact List.mem_cons_of_mem _ (List.mem_cons_of_mem _ h)
      · intro x hx
        have h0 := h2 (if b < a then b else a) List.mem_cons_self
        rcases List.mem_cons.1 hx with rfl | hx
        · refine le_trans h0 ?_; split_ifs with hlt; exacts [hlt.le, le_refl _]
        · rcases List.mem_cons.1 hx with rfl | hx
          · refine le_trans h0 ?_; split_ifs with hlt; exacts [le_refl _, not_lt.1 hlt]
          · exact h2 x (List.mem_cons_of_mem _ hx)

theorem greatest_is {l : List K} (h : l ≠ []) : Greatest (greatest l) l := by
  cases l with
  | nil => exact absurd rfl h
  | cons a l =>
    show Greatest (l.foldl _ a) (a :: l)
    clear h
    induction l generalizing a with
    | nil => exact ⟨by simp, by simp⟩
    | cons b l ih =>
      rw [List.foldl_cons]
      obtain ⟨h1, h2⟩ := ih (if b > a then b else a)
      constructor
      · rcases List.mem_cons.1 h1 with h | h
        · rw [h]; split_ifs <;> simp
        · exact List.mem_cons_of_mem _ (List.mem_cons_of_mem _ h)
      · intro x hx
        have h0 := h2 (if b > a then b else a) List.mem_cons_self
        rcases List.mem_cons.1 hx with rfl | hx
        · refine le_trans ?_ h0; split_ifs with hlt; exacts [le_of_lt hlt, le_refl _]
        · rcases List.mem_cons.1 hx with rfl | hx
          · refine le_trans ?_ h0; split_ifs with hlt; exacts [le_refl _, not_lt.1 hlt]
          · exact h2 x (List.mem_cons_of_mem _ hx)

theorem edge_least {asked : Option K} {l : List K} (h : l ≠ []) {o e : K} (he : Edge asked Least l o e) :
    bound asked (least l) o = e - o := by
  rcases he with rfl | ⟨rfl, h1, h2⟩
  · rfl
  · obtain ⟨a, b⟩ := least_is h
    exact le_antisymm (b _ h1) (h2 _ a)

theorem edge_greatest {asked : Option K} {l : List K} (h : l ≠ []) {o e : K} (he : Edge asked Greatest l o e) :
    bound asked (greatest l) o = e - o := by
  rcases he with rfl | ⟨rfl, h1, h2⟩
  · rfl
  · obtain ⟨a, b⟩ := greatest_is h
    exact le_antisymm (h2 _ a) (b _ h1)

/-- Positions relative to the corner of the map. -/
def rel (west south : K) (p : Pt K) : Pt K := ⟨p.x - west, p.y - south⟩

theorem frame_eq [FloorRing K] {r : Results K} (hp : Proper r) {w : Window K} {west east south north : K} (hx : Extent r w west east south north) (cell : K) :
    frame r.xs r.ys r.xll r.yll cell w =
      if west ≤ east ∧ south ≤ north then
        some ⟨west, south, (trunc ((east - west) / cell) + 1).toNat, (trunc ((north - south) / cell) + 1).toNat,
          List.zipWith (fun x y => ⟨x + r.xll - west, y + r.yll - south⟩) r.xs r.ys⟩
      else none := by
  have hy : r.ys ≠ [] := by
    intro h
    have := hp.size
    rw [h] at this
    exact hp.some (List.length_eq_zero_iff.1 this)
  unfold frame
  simp only
  rw [edge_least hp.some hx.west, edge_greatest hp.some hx.east, edge_least hy hx.south, edge_greatest hy hx.north]
  have c1 : (east - r.xll ≥ west - r.xll) ↔ west ≤ east := by simp
  have c2 : (north - r.yll ≥ south - r.yll) ↔ south ≤ north := by simp
  have e1 : west - r.xll + r.xll = west := by ring
  have e2 : south - r.yll + r.yll = south := by ring
  have e3 : east - r.xll - (west - r.xll) = east - west := by ring
  have e4 : north - r.yll - (south - r.yll) = north - south := by ring
  rw [e1, e2, e3, e4]
  simp only [c1, c2]
  by_cases h1 : west ≤ east
  · by_cases h2 : south ≤ north
    · rw [if_pos h1, if_pos h2, if_pos ⟨h1, h2⟩]
    · rw [if_pos h1, if_neg h2, if_neg (fun h => h2 h.2)]
  · rw [if_neg h1, if_neg (fun h => h1 h.1)]

theorem pts_get {r : Results K} (hp : Proper r) (west south : K) {i : ℕ} (hi : i < r.xs.length) :
    (List.zipWith (fun x y => (⟨x + r.xll - west, y + r.yll - south⟩ : Pt K)) r.xs r.ys).getD i ⟨0, 0⟩ = rel west south (place r i) := by
  have hi' : i < r.ys.length := by rw [← hp.size]; exact hi
  simp [List.getD_eq_getElem?_getD, hi, hi', rel, place]

theorem count_iff [FloorRing K] {d cell : K} (hc : 0 < cell) (hd : 0 ≤ d) (k : ℕ) : k < (trunc (d / cell) + 1).toNat ↔ (k : K) * cell ≤ d := by
  rw [← le_div_iff₀ hc]
  have h0 : 0 ≤ d / cell := div_nonneg hd hc.le
  have h1 : (k : ℤ) ≤ ⌊d / cell⌋ ↔ (k : K) ≤ d / cell := by rw [Int.le_floor]; push_cast; rfl
  rw [← h1]
  unfold trunc
  rw [if_pos h0]
  have := Int.floor_nonneg.2 h0
  omega

/-! ## Change of origin -/

theorem closed_rel {w s : K} {p a b c : Pt K} : InClosedTri (rel w s p) (rel w s a) (rel w s b) (rel w s c) ↔ InClosedTri p a b c := by
  constructor
  · rintro ⟨u, v, t, hu, hv, ht, h1, hx, hy⟩
    refine ⟨u, v, t, hu, hv, ht, h1, ?_, ?_⟩
    · simp only [rel] at hx; linear_combination hx - w * h1
    · simp only [rel] at hy; linear_combination hy - s * h1
  · rintro ⟨u, v, t, hu, hv, ht, h1, hx, hy⟩
    refine ⟨u, v, t, hu, hv, ht, h1, ?_, ?_⟩
    · simp only [rel]; linear_combination hx + w * h1
    · simp only [rel]; linear_combination hy + s * h1

theorem flat_rel {w s : K} {a b c : Pt K} : Flat (rel w s a) (rel w s b) (rel w s c) ↔ Flat a b c := by
  unfold Flat rel
  simp only [sub_sub_sub_cancel_right]

theorem beside_of_rel {w s : K} {p a b : Pt K} (h : Beside (rel w s p) (rel w s a) (rel w s b)) : Beside p a b := by
  obtain ⟨q, ⟨t, t0, t1, hx, hy⟩, hq⟩ := h
  refine ⟨⟨q.x + w, q.y + s⟩, ⟨t, t0, t1, ?_, ?_⟩, ?_⟩
  · simp only [rel] at hx ⊢; linear_combination hx
  · simp only [rel] at hy ⊢; linear_combination hy
  · simp only [rel, sub_sub_sub_cancel_right] at hq
    have e1 : p.x - (q.x + w) = p.x - w - q.x := by ring
    have e2 : p.y - (q.y + s) = p.y - s - q.y := by ring
    simp only [e1, e2]
    exact hq

theorem touches_of_rel {w s : K} {p a b c : Pt K} (h : Touches (rel w s p) (rel w s a) (rel w s b) (rel w s c)) : Touches p a b c := by
  rcases h with ⟨hf, u, v, t, hu, hv, ht, h1, hx, hy⟩ | h | h | h
  · refine Or.inl ⟨fun h => hf (flat_rel.2 h), u, v, t, hu, hv, ht, h1, ?_, ?_⟩
    · simp only [rel] at hx; linear_combination hx - w * h1
    · simp only [rel] at hy; linear_combination hy - s * h1
  · exact Or.inr (Or.inl (beside_of_rel h))
  · exact Or.inr (Or.inr (Or.inl (beside_of_rel h)))
  · exact Or.inr (Or.inr (Or.inr (beside_of_rel h)))

theorem linear_of_rel {w s : K} {p a b c : Pt K} {va vb vc v : K} (h : Linear (rel w s p) (rel w s a) (rel w s b) (rel w s c) va vb vc v) :
    Linear p a b c va vb vc v := by
  obtain ⟨A, B, C, ha, hb, hc, hv⟩ := h
  simp only [rel] at ha hb hc hv
  exact ⟨A - B * w - C * s, B, C, by rw [ha]; ring, by rw [hb]; ring, by rw [hc]; ring, by rw [hv]; ring⟩

end Verif.Dem
