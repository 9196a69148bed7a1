import Verif.Compose.Spec
import Mathlib.Tactic.Linarith
import Mathlib.Tactic.Ring
import Mathlib.Tactic.FieldSimp
import Mathlib.Tactic.NormNum

/-!
# C93: values from scattered points and from rasters

Nearest neighbours: the result comes from the `k` nearest data points.  Rasters: the value of the pixel at the point, or bilinear
interpolation between the four pixels around it.
-/

set_option linter.unusedSectionVars false

namespace Verif.Compose

open Verif.Polygon

variable {K : Type*} [Field K] [LinearOrder K] [IsStrictOrderedRing K]

/-! ## Helper lemmas -/

theorem huge_pos : (0 : K) < huge := by unfold huge; positivity

theorem lowest_go (vals : List K) (a : K) :
    (vals.foldl (fun m v => if v < m then v else m) a = a ∨ vals.foldl (fun m v => if v < m then v else m) a ∈ vals) ∧
    vals.foldl (fun m v => if v < m then v else m) a ≤ a ∧ ∀ v ∈ vals, vals.foldl (fun m v => if v < m then v else m) a ≤ v := by
  induction vals generalizing a with
  | nil => simp
  | cons x l ih =>
    rw [List.foldl_cons]
    obtain ⟨h1, h2, h3⟩ := ih (if x < a then x else a)
    have hx : (if x < a then x else a) ≤ x ∧ (if x < a then x else a) ≤ a := by
      split_ifs with h
      · exact ⟨le_refl _, h.le⟩
      · exact ⟨not_lt.1 h, le_refl _⟩
    refine ⟨?_, le_trans h2 hx.2, ?_⟩
    · rcases h1 with h1 | h1
      · rw [h1]
        split_ifs
        · exact Or.inr List.mem_cons_self
        · exact Or.inl rfl
      · exact Or.inr (List.mem_cons_of_mem _ h1)
    · intro v hv
      rcases List.mem_cons.1 hv with rfl | hv
      · exact le_trans h2 hx.1
      · exact h3 v hv

theorem highest_go (vals : List K) (a : K) :
    (vals.foldl (fun m v => if m < v then v else m) a = a ∨ vals.foldl (fun m v => if m < v then v else m) a ∈ vals) ∧
    a ≤ vals.foldl (fun m v => if m < v then v else m) a ∧ ∀ v ∈ vals, v ≤ vals.foldl (fun m v => if m < v then v else m) a := by
  induction vals generalizing a with
  | nil => simp
  | cons x l ih =>
    rw [List.foldl_cons]
    obtain ⟨h1, h2, h3⟩ := ih (if a < x then x else a)
    have hx : x ≤ (if a < x then x else a) ∧ a ≤ (if a < x then x else a) := by
      split_ifs with h
      · exact ⟨le_refl _, h.le⟩
      · exact ⟨not_lt.1 h, le_refl _⟩
    refine ⟨?_, le_trans hx.2 h2, ?_⟩
    · rcases h1 with h1 | h1
      · rw [h1]
        split_ifs
        · exact Or.inr List.mem_cons_self
        · exact Or.inl rfl
      · exact Or.inr (List.mem_cons_of_mem _ h1)
    · intro v hv
      rcases List.mem_cons.1 hv with rfl | hv
      · exact le_trans hx.1 h2
      · exact h3 v hv

theorem foldl_add {α : Type*} (l : List α) (f : α → K) (a : K) : l.foldl (fun s x => s + f x) a = a + (l.map f).sum := by
  induction l generalizing a with
  | nil => simp
  | cons x l ih => rw [List.foldl_cons, ih, List.map_cons, List.sum_cons]; ring

/-- The weight of a neighbour. -/
def weight (r : K) : K := 1 / (r + 1 / 10 ^ 100)

theorem weight_pos {r : K} (h : 0 ≤ r) : 0 < weight r := by unfold weight; positivity

theorem weighted_eq (nb : List (K × K)) : weighted nb = (nb.map fun x => x.2 * weight x.1).sum / (nb.map fun x => weight x.1).sum := by
  unfold weighted weight
  rw [foldl_add nb (fun dv => dv.2 * (1 / (dv.1 + 1 / 10 ^ 100))), foldl_add nb (fun dv => 1 / (dv.1 + 1 / 10 ^ 100))]
  rw [zero_add, zero_add]

theorem sum_pos' {nb : List (K × K)} (h0 : nb ≠ []) (h : ∀ x ∈ nb, 0 ≤ x.1) : 0 < (nb.map fun x => weight x.1).sum := by
  induction nb with
  | nil => exact absurd rfl h0
  | cons x l ih =>
    rw [List.map_cons, List.sum_cons]
    have h1 := weight_pos (h x List.mem_cons_self)
    by_cases hl : l = []
    · subst hl; simpa using h1
    · have := ih hl (fun y hy => h y (List.mem_cons_of_mem _ hy))
      linarith

theorem sum_bound {nb : List (K × K)} (h : ∀ x ∈ nb, 0 ≤ x.1) {a b : K} (hab : ∀ x ∈ nb, a ≤ x.2 ∧ x.2 ≤ b) :
    a * (nb.map fun x => weight x.1).sum ≤ (nb.map fun x => x.2 * weight x.1).sum ∧
    (nb.map fun x => x.2 * weight x.1).sum ≤ b * (nb.map fun x => weight x.1).sum := by
  induction nb with
  | nil => simp
  | cons x l ih =>
    obtain ⟨h1, h2⟩ := ih (fun y hy => h y (List.mem_cons_of_mem _ hy)) (fun y hy => hab y (List.mem_cons_of_mem _ hy))
    have hw := weight_pos (h x List.mem_cons_self)
    obtain ⟨h3, h4⟩ := hab x List.mem_cons_self
    simp only [List.map_cons, List.sum_cons, mul_add]
    have h5 := mul_le_mul_of_nonneg_right h3 hw.le
    have h6 := mul_le_mul_of_nonneg_right h4 hw.le
    exact ⟨by linarith, by linarith⟩

theorem weighted_bound {nb : List (K × K)} (h0 : nb ≠ []) (h : ∀ x ∈ nb, 0 ≤ x.1) {a b : K} (hab : ∀ x ∈ nb, a ≤ x.2 ∧ x.2 ≤ b) :
    a ≤ weighted nb ∧ weighted nb ≤ b := by
  rw [weighted_eq]
  have hp := sum_pos' h0 h
  obtain ⟨h1, h2⟩ := sum_bound h hab
  exact ⟨(le_div_iff₀ hp).2 h1, (div_le_iff₀ hp).2 h2⟩

/-- The neighbours as the model lists them. -/
theorem nb_value {d : List (Datum K)} {k : ℕ} {p : Pt K} {near : List (K × ℕ)} (hn : Nearest d k p near) {x : K × K}
    (hx : x ∈ near.map fun di => (di.1, (d.map Datum.value).getD di.2 0)) : 0 ≤ x.1 ∧ ∃ e, Listed d near e ∧ x.2 = e.value ∧ x.1 * x.1 = dist2 p e.at_ := by
  obtain ⟨y, hy, rfl⟩ := List.mem_map.1 hx
  obtain ⟨e, he, h0, h1⟩ := hn.distance y hy
  refine ⟨h0, e, ⟨y, hy, he⟩, ?_, h1⟩
  simp [List.getD_eq_getElem?_getD, he]

theorem nb_listed {d : List (Datum K)} {near : List (K × ℕ)} {e : Datum K} (h : Listed d near e) :
    ∃ x ∈ near.map fun di => (di.1, (d.map Datum.value).getD di.2 0), x.2 = e.value := by
  obtain ⟨y, hy, he⟩ := h
  refine ⟨_, List.mem_map_of_mem hy, ?_⟩
  simp [List.getD_eq_getElem?_getD, he]

/-- Which branch is taken. -/
theorem nearest_cases (query : Query K) (d : List (Datum K)) (k : ℕ) (method : Method) (thr bg : K) (p : Pt K)
    (hn : Nearest d k p (query d k p)) (hk : 0 < k) :
    ((∃ e ∈ d, ∃ r, 0 ≤ r ∧ r * r = dist2 p e.at_ ∧ r < thr) → nearest query d k method thr bg p =
      match method with
      | .min => lowest (((query d k p).map fun di => (di.1, (d.map Datum.value).getD di.2 0)).map Prod.snd)
      | .max => highest (((query d k p).map fun di => (di.1, (d.map Datum.value).getD di.2 0)).map Prod.snd)
      | .average => weighted ((query d k p).map fun di => (di.1, (d.map Datum.value).getD di.2 0))) ∧
    ((∀ e ∈ d, ∀ r, 0 ≤ r → r * r = dist2 p e.at_ → thr ≤ r) → nearest query d k method thr bg p = bg) := by
  unfold nearest
  have hlen := hn.count
  cases hq : query d k p with
  | nil => rw [hq] at hlen; simp at hlen; omega
  | cons y l =>
    rw [hq] at hn
    simp only [List.map_cons]
    obtain ⟨e0, he0, h0, h1⟩ := hn.distance y List.mem_cons_self
    constructor
    · rintro ⟨e, he, r, hr0, hr, hrt⟩
      -- the first neighbour is as near
      have hle : y.1 * y.1 ≤ r * r := by
        obtain ⟨j, hj⟩ := List.getElem?_of_mem he
        by_cases hm : j ∈ (y :: l).map Prod.snd
        · obtain ⟨z, hz, rfl⟩ := List.mem_map.1 hm
          obtain ⟨e', he', hz0, hz1⟩ := hn.distance z hz
          rw [hj, Option.some.injEq] at he'
          subst he'
          rw [hr, ← hz1]
          have hyz : y.1 ≤ z.1 := by
            rcases List.mem_cons.1 hz with rfl | hz
            · exact le_refl _
            · exact (List.pairwise_cons.1 hn.sorted).1 z hz
          exact mul_self_le_mul_self h0 hyz
        · rw [hr]
          exact hn.others j e hj hm y List.mem_cons_self
      have : y.1 ≤ r := by
        by_contra hlt
        have := mul_self_lt_mul_self hr0 (not_le.1 hlt)
        linarith
      rw [if_pos (lt_of_le_of_lt this hrt)]
      all_goals (cases method <;> rfl)
    · intro h
      rw [if_neg]
      exact not_lt.2 (h e0 (List.mem_of_getElem? he0) y.1 h0 h1)

/-! ## Scattered data -/

/-- **C93.** One neighbour: the result is the value of a nearest data point if that is nearer than the threshold, otherwise (also at exactly that distance)
the background value, with each method. -/
theorem C93_one (query : Query K) (hq : Correct query) (d : List (Datum K)) (method : Method) (thr bg : K) (p : Pt K) (hd : d ≠ [])
    (hv : ∀ e ∈ d, -huge ≤ e.value ∧ e.value ≤ huge) :
    ∃ e ∈ d, (∀ e' ∈ d, dist2 p e.at_ ≤ dist2 p e'.at_) ∧ ∃ r, 0 ≤ r ∧ r * r = dist2 p e.at_ ∧
      nearest query d 1 method thr bg p = if r < thr then e.value else bg := by
  have hlen : 1 ≤ d.length := List.length_pos_iff.2 hd
  have hn := hq d 1 p hlen
  obtain ⟨y, hy⟩ := List.length_eq_one_iff.1 hn.count
  obtain ⟨e, he, h0, h1⟩ := hn.distance y (by rw [hy]; exact List.mem_singleton.2 rfl)
  refine ⟨e, List.mem_of_getElem? he, ?_, y.1, h0, h1, ?_⟩
  · intro e' he'
    obtain ⟨j, hj⟩ := List.getElem?_of_mem he'
    by_cases hm : j ∈ (query d 1 p).map Prod.snd
    · rw [hy] at hm
      simp only [List.map_cons, List.map_nil, List.mem_singleton] at hm
      subst hm
      rw [hj, Option.some.injEq] at he
      rw [he]
    · rw [← h1]
      exact hn.others j e' hj hm y (by rw [hy]; exact List.mem_singleton.2 rfl)
  · unfold nearest
    rw [hy]
    have hval : (d.map Datum.value).getD y.2 0 = e.value := by simp [List.getD_eq_getElem?_getD, he]
    simp only [List.map_cons, List.map_nil, hval]
    obtain ⟨b1, b2⟩ := hv e (List.mem_of_getElem? he)
    split_ifs
    · cases method with
      | min =>
        simp only [lowest, List.foldl_cons, List.foldl_nil]
        split_ifs with hh
        · rfl
        · exact le_antisymm (not_lt.1 hh) b2
      | max =>
        simp only [highest, List.foldl_cons, List.foldl_nil]
        split_ifs with hh
        · rfl
        · exact le_antisymm b1 (not_lt.1 hh)
      | average =>
        simp only [weighted, List.foldl_cons, List.foldl_nil, zero_add]
        have : (0 : K) < 1 / (y.1 + 1 / 10 ^ 100) := weight_pos h0
        field_simp
    · rfl

/-- **C93.** Several neighbours, some data point nearer than the threshold: the smallest, the largest or a weighted mean of the values of the `k` nearest data
points, the weights being the inverse of the distance (plus `1.0e-100`). -/
theorem C93_many (query : Query K) (hq : Correct query) (d : List (Datum K)) (k : ℕ) (thr bg : K) (p : Pt K) (hk : 0 < k) (hkd : k ≤ d.length)
    (hv : ∀ e ∈ d, -huge ≤ e.value ∧ e.value ≤ huge) (hnear : ∃ e ∈ d, ∃ r, 0 ≤ r ∧ r * r = dist2 p e.at_ ∧ r < thr) :
    ∃ near : List (K × ℕ), Nearest d k p near ∧
      (∃ e, Listed d near e ∧ nearest query d k .min thr bg p = e.value ∧ ∀ e', Listed d near e' → e.value ≤ e'.value) ∧
      (∃ e, Listed d near e ∧ nearest query d k .max thr bg p = e.value ∧ ∀ e', Listed d near e' → e'.value ≤ e.value) ∧
      (∀ w : List (K × Datum K), w.map Prod.fst = near.map Prod.fst → w.map (fun x => some x.2) = near.map (fun x => d[x.2]?) →
        nearest query d k .average thr bg p * (w.map fun x => 1 / (x.1 + 1 / 10 ^ 100)).sum = (w.map fun x => x.2.value / (x.1 + 1 / 10 ^ 100)).sum) ∧
      (∀ a b, (∀ e, Listed d near e → a ≤ e.value ∧ e.value ≤ b) → a ≤ nearest query d k .average thr bg p ∧ nearest query d k .average thr bg p ≤ b) := by
  have hn := hq d k p hkd
  refine ⟨query d k p, hn, ?_⟩
  have hc := fun m => (nearest_cases query d k m thr bg p hn hk).1 hnear
  rw [hc .min, hc .max, hc .average]
  simp only
  set nb := (query d k p).map fun di => (di.1, (d.map Datum.value).getD di.2 0) with hnb
  have hne : nb ≠ [] := by
    rw [hnb, ne_eq, List.map_eq_nil_iff, ← List.length_eq_zero_iff, hn.count]; omega
  have hmem : ∀ e, Listed d (query d k p) e → e ∈ d := fun e ⟨x, _, h⟩ => List.mem_of_getElem? h
  obtain ⟨x0, hx0⟩ := List.exists_mem_of_ne_nil _ hne
  have hx0' := nb_value hn hx0
  refine ⟨?_, ?_, ?_, ?_⟩
  · obtain ⟨h1, h2, h3⟩ := lowest_go (nb.map Prod.snd) huge
    have hlow : ∀ e', Listed d (query d k p) e' → lowest (nb.map Prod.snd) ≤ e'.value := by
      intro e' he'
      obtain ⟨x, hx, e⟩ := nb_listed he'
      rw [← e]
      exact h3 _ (List.mem_map_of_mem hx)
    rcases h1 with h1 | h1
    · obtain ⟨_, e, hl, hve, _⟩ := hx0'
      refine ⟨e, hl, ?_, fun e' he' => ?_⟩
      · exact le_antisymm (hlow e hl) (by unfold lowest; rw [h1]; exact (hv e (hmem e hl)).2)
      · refine le_trans (hv e (hmem e hl)).2 ?_
        have := hlow e' he'
        unfold lowest at this
        rw [h1] at this
        exact this
    · obtain ⟨x, hx, e⟩ := List.mem_map.1 h1
      obtain ⟨_, e', hl, hve, _⟩ := nb_value hn hx
      refine ⟨e', hl, ?_, fun e'' he'' => ?_⟩
      · unfold lowest; rw [← e, hve]
      · have := hlow e'' he''
        unfold lowest at this
        rw [← e, hve] at this
        exact this
  · obtain ⟨h1, h2, h3⟩ := highest_go (nb.map Prod.snd) (-huge)
    have hhigh : ∀ e', Listed d (query d k p) e' → e'.value ≤ highest (nb.map Prod.snd) := by
      intro e' he'
      obtain ⟨x, hx, e⟩ := nb_listed he'
      rw [← e]
      exact h3 _ (List.mem_map_of_mem hx)
    rcases h1 with h1 | h1
    · obtain ⟨_, e, hl, hve, _⟩ := hx0'
      refine ⟨e, hl, ?_, fun e' he' => ?_⟩
      · exact le_antisymm (by unfold highest; rw [h1]; exact (hv e (hmem e hl)).1) (hhigh e hl)
      · refine le_trans ?_ (hv e (hmem e hl)).1
        have := hhigh e' he'
        unfold highest at this
        rw [h1] at this
        exact this
    · obtain ⟨x, hx, e⟩ := List.mem_map.1 h1
      obtain ⟨_, e', hl, hve, _⟩ := nb_value hn hx
      refine ⟨e', hl, ?_, fun e'' he'' => ?_⟩
      · unfold highest; rw [← e, hve]
      · have := hhigh e'' he''
        unfold highest at this
        rw [← e, hve] at this
        exact this
  · intro w hw1 hw2
    have hnbw : nb = w.map fun x => (x.1, x.2.value) := by
      apply List.ext_getElem?
      intro i
      have e1 : (w.map Prod.fst)[i]? = ((query d k p).map Prod.fst)[i]? := by rw [hw1]
      have e2 : (w.map (fun x => some x.2))[i]? = ((query d k p).map (fun x => d[x.2]?))[i]? := by rw [hw2]
      rw [List.getElem?_map, List.getElem?_map] at e1 e2
      rw [hnb, List.getElem?_map, List.getElem?_map]
      cases hwi : w[i]? with
      | none => rw [hwi] at e1; cases hqi : (query d k p)[i]? with
        | none => rfl
        | some y => rw [hqi] at e1; simp at e1
      | some x =>
        rw [hwi] at e1 e2
        cases hqi : (query d k p)[i]? with
        | none => rw [hqi] at e1; simp at e1
        | some y =>
          rw [hqi] at e1 e2
          simp only [Option.map_some, Option.some.injEq] at e1 e2
          simp [List.getD_eq_getElem?_getD, ← e2, e1]
    have hp := sum_pos' hne (fun x hx => (nb_value hn hx).1)
    rw [weighted_eq]
    have h1 : (nb.map fun x => weight x.1).sum = (w.map fun x => 1 / (x.1 + 1 / 10 ^ 100)).sum := by rw [hnbw, List.map_map]; rfl
    have h2 : (nb.map fun x => x.2 * weight x.1).sum = (w.map fun x => x.2.value / (x.1 + 1 / 10 ^ 100)).sum := by
      rw [hnbw, List.map_map]
      congr 1
      apply List.map_congr_left
      intro x _
      simp only [Function.comp, weight]
      rw [mul_one_div]
    rw [← h1, ← h2, div_mul_cancel₀ _ (ne_of_gt hp)]
  · intro a b hab
    refine weighted_bound hne (fun x hx => (nb_value hn hx).1) fun x hx => ?_
    obtain ⟨_, e, hl, hve, _⟩ := nb_value hn hx
    rw [hve]
    exact hab e hl

/-- **C93.** If no data point is nearer than the threshold the result is the background value. -/
theorem C93_background (query : Query K) (hq : Correct query) (d : List (Datum K)) (k : ℕ) (method : Method) (thr bg : K) (p : Pt K) (hk : 0 < k) (hkd : k ≤ d.length)
    (h : ∀ e ∈ d, ∀ r, 0 ≤ r → r * r = dist2 p e.at_ → thr ≤ r) : nearest query d k method thr bg p = bg :=
  (nearest_cases query d k method thr bg p (hq d k p hkd) hk).2 h

end Verif.Compose
