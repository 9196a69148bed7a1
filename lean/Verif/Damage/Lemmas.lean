import Verif.Damage.Spec
import Mathlib.Data.List.Nodup
import Mathlib.Data.List.Perm.Basic
import Mathlib.Tactic.Linarith
import Mathlib.Tactic.FieldSimp

set_option linter.unusedSectionVars false

/-! # Lemmas about damage -/

namespace Verif.Damage

variable {K : Type} [Field K] [LinearOrder K] [IsStrictOrderedRing K]

theorem interpFrom_line (p : K × K) (l : List (K × K)) (hs : (p :: l).Pairwise fun a b => a.1 < b.1) (x v : K) (hx : p.1 ≤ x) :
    interpFrom p l x = some v ↔ Line (p :: l) x v := by
  induction l generalizing p with
  | nil =>
    constructor
    · intro h; cases h
    · rintro ⟨a, c, d, b, e, -⟩
      have := congrArg List.length e
      simp at this; omega
  | cons q l ih =>
    have hpq : p.1 < q.1 := (List.pairwise_cons.mp hs).1 q List.mem_cons_self
    have hs' := (List.pairwise_cons.mp hs).2
    have hne : q.1 - p.1 ≠ 0 := sub_ne_zero.mpr (ne_of_gt hpq)
    rw [interpFrom]
    by_cases hq : x ≤ q.1
    · rw [if_pos hq]
      constructor
      · intro h
        injection h with h
        refine ⟨[], p, q, l, rfl, hx, hq, ?_⟩
        rw [← h]
        field_simp
        ring
      · rintro ⟨a, c, d, b, e, h1, h2, h3⟩
        cases a with
        | nil =>
          simp only [List.nil_append, List.cons.injEq] at e
          obtain ⟨rfl, rfl, rfl⟩ := e
          congr 1
          field_simp
          linear_combination -h3
        | cons a0 a =>
          simp only [List.cons_append, List.cons.injEq] at e
          obtain ⟨rfl, e⟩ := e
          cases a with
          | nil =>
            simp only [List.nil_append, List.cons.injEq] at e
            obtain ⟨rfl, rfl⟩ := e
            have hxq : x = q.1 := le_antisymm hq h1
            subst hxq
            have hqd : q.1 < d.1 := (List.pairwise_cons.mp hs').1 d List.mem_cons_self
            have : v - q.2 = 0 := by
              have h4 : (v - q.2) * (d.1 - q.1) = 0 := by rw [h3]; ring
              rcases mul_eq_zero.mp h4 with h | h
              · exact h
              · linarith
            congr 1
            field_simp
            linear_combination -this
          | cons a1 a =>
            simp only [List.cons_append, List.cons.injEq] at e
            obtain ⟨rfl, e⟩ := e
            have : q.1 < c.1 := (List.pairwise_cons.mp hs').1 c (by rw [e]; simp)
            linarith
    · rw [if_neg hq, ih q hs' (le_of_lt (not_le.mp hq))]
      constructor
      · rintro ⟨a, c, d, b, e, h⟩
        exact ⟨p :: a, c, d, b, by rw [e]; rfl, h⟩
      · rintro ⟨a, c, d, b, e, h1, h2, h3⟩
        cases a with
        | nil =>
          simp only [List.nil_append, List.cons.injEq] at e
          obtain ⟨rfl, rfl, rfl⟩ := e
          exact absurd h2 hq
        | cons a0 a =>
          simp only [List.cons_append, List.cons.injEq] at e
          exact ⟨a, c, d, b, e.2, h1, h2, h3⟩

theorem interp_line (l : List (K × K)) (hs : l.Pairwise fun a b => a.1 < b.1) (x v : K) : interp l x = some v ↔ Line l x v := by
  cases l with
  | nil =>
    constructor
    · intro h; cases h
    · rintro ⟨a, c, d, b, e, -⟩
      have := congrArg List.length e
      simp at this
  | cons p l =>
    rw [interp]
    by_cases hx : x < p.1
    · rw [if_pos hx]
      constructor
      · intro h; cases h
      · rintro ⟨a, c, d, b, e, h1, -⟩
        have : p.1 ≤ c.1 := by
          cases a with
          | nil => simp only [List.nil_append, List.cons.injEq] at e; rw [e.1]
          | cons a0 a =>
            simp only [List.cons_append, List.cons.injEq] at e
            exact le_of_lt ((List.pairwise_cons.mp hs).1 c (by rw [e.2]; simp))
        linarith
    · rw [if_neg hx]
      exact interpFrom_line p l hs x v (not_lt.mp hx)

theorem interpFrom_some (p : K × K) (l : List (K × K)) (x : K) (hx : ∃ q ∈ l, x ≤ q.1) : ∃ v, interpFrom p l x = some v := by
  induction l generalizing p with
  | nil => obtain ⟨q, hq, -⟩ := hx; cases hq
  | cons q l ih =>
    rw [interpFrom]
    by_cases h : x ≤ q.1
    · exact ⟨_, if_pos h⟩
    · rw [if_neg h]
      obtain ⟨q', hq', h'⟩ := hx
      rcases List.mem_cons.mp hq' with rfl | hq'
      · exact absurd h' h
      · exact ih q ⟨q', hq', h'⟩

/-- Between two points the value lies between theirs, and grows. -/
theorem interpFrom_bounds (p : K × K) (l : List (K × K)) (hs : (p :: l).Pairwise fun a b => a.1 < b.1 ∧ a.2 ≤ b.2) (x v : K) (hx : p.1 ≤ x)
    (h : interpFrom p l x = some v) : p.2 ≤ v := by
  induction l generalizing p with
  | nil => cases h
  | cons q l ih =>
    have hpq := (List.pairwise_cons.mp hs).1 q List.mem_cons_self
    rw [interpFrom] at h
    by_cases hq : x ≤ q.1
    · rw [if_pos hq] at h
      injection h with h
      rw [← h]
      have : 0 ≤ (q.2 - p.2) / (q.1 - p.1) * (x - p.1) :=
        mul_nonneg (div_nonneg (by linarith [hpq.2]) (by linarith [hpq.1])) (by linarith)
      linarith
    · rw [if_neg hq] at h
      exact le_trans hpq.2 (ih q (List.pairwise_cons.mp hs).2 (le_of_lt (not_le.mp hq)) h)

theorem interpFrom_mono (p : K × K) (l : List (K × K)) (hs : (p :: l).Pairwise fun a b => a.1 < b.1 ∧ a.2 ≤ b.2) (x y v w : K) (hx : p.1 ≤ x)
    (hxy : x ≤ y) (hv : interpFrom p l x = some v) (hw : interpFrom p l y = some w) : v ≤ w := by
  induction l generalizing p with
  | nil => cases hv
  | cons q l ih =>
    have hpq := (List.pairwise_cons.mp hs).1 q List.mem_cons_self
    have hs' := (List.pairwise_cons.mp hs).2
    have hsl : 0 ≤ (q.2 - p.2) / (q.1 - p.1) := div_nonneg (by linarith [hpq.2]) (by linarith [hpq.1])
    rw [interpFrom] at hv hw
    by_cases hq : x ≤ q.1
    · rw [if_pos hq] at hv
      injection hv with hv
      by_cases hq' : y ≤ q.1
      · rw [if_pos hq'] at hw
        injection hw with hw
        rw [← hv, ← hw]
        have := mul_le_mul_of_nonneg_left (show x - p.1 ≤ y - p.1 by linarith) hsl
        linarith
      · rw [if_neg hq'] at hw
        have h1 := interpFrom_bounds q l hs' y w (le_of_lt (not_le.mp hq')) hw
        have h2 : v ≤ q.2 := by
          rw [← hv]
          have h3 := mul_le_mul_of_nonneg_left (show x - p.1 ≤ q.1 - p.1 by linarith) hsl
          have h4 : (q.2 - p.2) / (q.1 - p.1) * (q.1 - p.1) = q.2 - p.2 := div_mul_cancel₀ _ (sub_ne_zero.mpr (ne_of_gt hpq.1))
          linarith
        linarith
    · rw [if_neg hq] at hv
      rw [if_neg (fun h => hq (le_trans hxy h))] at hw
      exact ih q hs' (le_of_lt (not_le.mp hq)) hv hw

/-! ## Greatest values -/

theorem observe_known {sqrt : K → K} {g : K} {a : K × K} {v : Val K} {w z uh vh : K} (h : v.Known w z uh vh) :
    observe sqrt g a v = (max (w - z - g) a.1, max (sqrt (uh * uh + vh * vh)) a.2) := by
  obtain ⟨h1, h2, h3, h4⟩ := h
  unfold observe
  simp only [h1, h2, h3, h4]
  congr 1
  · by_cases h : a.1 < w - z - g
    · rw [if_pos h, max_eq_left (le_of_lt h)]
    · rw [if_neg h, max_eq_right (not_lt.mp h)]
  · by_cases h : a.2 < sqrt (uh * uh + vh * vh)
    · rw [if_pos h, max_eq_left (le_of_lt h)]
    · rw [if_neg h, max_eq_right (not_lt.mp h)]

theorem observe_unknown {sqrt : K → K} {g : K} {a : K × K} {v : Val K} (h : ¬ ∃ w z uh vh, v.Known w z uh vh) : observe sqrt g a v = a := by
  unfold observe
  split
  · next w z uh vh h1 h2 h3 h4 => exact absurd ⟨w, z, uh, vh, h1, h2, h3, h4⟩ h
  · rfl

/-- The values over some times. -/
def Best (sqrt : K → K) (g : K) (P : K → K → K → K → Prop) (a0 a : K × K) : Prop :=
  IsGreatest {x | x = a0.1 ∨ ∃ w z uh vh, P w z uh vh ∧ x = w - z - g} a.1 ∧
  IsGreatest {x | x = a0.2 ∨ ∃ w z uh vh, P w z uh vh ∧ x = sqrt (uh * uh + vh * vh)} a.2

theorem best_max {S : K → Prop} {a b c : K} (h : IsGreatest {x | x = a ∨ S x} b) : IsGreatest {x | x = a ∨ (S x ∨ x = c)} (max c b) := by
  constructor
  · rcases le_total c b with h' | h'
    · rw [max_eq_right h']
      rcases h.1 with h1 | h1
      · exact Or.inl h1
      · exact Or.inr (Or.inl h1)
    · rw [max_eq_left h']; exact Or.inr (Or.inr rfl)
  · rintro x (hx | hx | hx)
    · exact le_max_of_le_right (h.2 (Or.inl hx))
    · exact le_max_of_le_right (h.2 (Or.inr hx))
    · rw [hx]; exact le_max_left _ _

theorem fold_best (sqrt : K → K) (g : K) (P : K → K → K → K → Prop) (ts : List (Val K)) (a0 a : K × K) (h : Best sqrt g P a0 a) :
    Best sqrt g (fun w z uh vh => P w z uh vh ∨ ∃ v ∈ ts, v.Known w z uh vh) a0 (ts.foldl (observe sqrt g) a) := by
  induction ts generalizing P a with
  | nil => simpa using h
  | cons v ts ih =>
    rw [List.foldl_cons]
    have key : Best sqrt g (fun w z uh vh => P w z uh vh ∨ v.Known w z uh vh) a0 (observe sqrt g a v) := by
      by_cases hv : ∃ w z uh vh, v.Known w z uh vh
      · obtain ⟨w, z, uh, vh, hv⟩ := hv
        rw [observe_known hv]
        have uniq : ∀ w' z' uh' vh', v.Known w' z' uh' vh' ↔ w' = w ∧ z' = z ∧ uh' = uh ∧ vh' = vh := by
          intro w' z' uh' vh'
          constructor
          · rintro ⟨h1, h2, h3, h4⟩
            rw [hv.1] at h1; rw [hv.2.1] at h2; rw [hv.2.2.1] at h3; rw [hv.2.2.2] at h4
            cases h1; cases h2; cases h3; cases h4
            exact ⟨rfl, rfl, rfl, rfl⟩
          · rintro ⟨rfl, rfl, rfl, rfl⟩; exact hv
        constructor
        · convert best_max (c := w - z - g) h.1 using 1
          ext x
          constructor
          · rintro (e | ⟨w', z', uh', vh', hp | hp, e⟩)
            · exact Or.inl e
            · exact Or.inr (Or.inl ⟨w', z', uh', vh', hp, e⟩)
            · obtain ⟨rfl, rfl, rfl, rfl⟩ := (uniq _ _ _ _).mp hp
              exact Or.inr (Or.inr e)
          · rintro (e | ⟨w', z', uh', vh', hp, e⟩ | e)
            · exact Or.inl e
            · exact Or.inr ⟨w', z', uh', vh', Or.inl hp, e⟩
            · exact Or.inr ⟨w, z, uh, vh, Or.inr hv, e⟩
        · convert best_max (c := sqrt (uh * uh + vh * vh)) h.2 using 1
          ext x
          constructor
          · rintro (e | ⟨w', z', uh', vh', hp | hp, e⟩)
            · exact Or.inl e
            · exact Or.inr (Or.inl ⟨w', z', uh', vh', hp, e⟩)
            · obtain ⟨rfl, rfl, rfl, rfl⟩ := (uniq _ _ _ _).mp hp
              exact Or.inr (Or.inr e)
          · rintro (e | ⟨w', z', uh', vh', hp, e⟩ | e)
            · exact Or.inl e
            · exact Or.inr ⟨w', z', uh', vh', Or.inl hp, e⟩
            · exact Or.inr ⟨w, z, uh, vh, Or.inr hv, e⟩
      · rw [observe_unknown hv]
        have : ∀ w z uh vh, (P w z uh vh ∨ v.Known w z uh vh) ↔ P w z uh vh := by
          intro w z uh vh
          exact ⟨fun h => h.elim id fun h => absurd ⟨w, z, uh, vh, h⟩ hv, Or.inl⟩
        simpa only [Best, this] using h
    have := ih _ _ key
    simpa only [Best, List.mem_cons, exists_eq_or_imp, or_assoc] using this

theorem calcMax_best (sqrt : K → K) (g : K) (n : ℕ) (files : List (List (List (Val K)))) (hf : ∀ f ∈ files, f.length = n) (i : ℕ) (hi : i < n) :
    ∃ a, (calcMax sqrt g n files)[i]? = some a ∧ Best sqrt g (Seen files i) (-g, -g) a := by
  unfold calcMax
  suffices h : ∀ (st : List (K × K)) (P : K → K → K → K → Prop) a, st[i]? = some a → Best sqrt g P (-g, -g) a →
      ∃ a, (files.foldl (fun st file => List.zipWith (fun a ts => ts.foldl (observe sqrt g) a) st file) st)[i]? = some a ∧
        Best sqrt g (fun w z uh vh => P w z uh vh ∨ Seen files i w z uh vh) (-g, -g) a by
    obtain ⟨a, h1, h2⟩ := h (List.replicate n (-g, -g)) (fun _ _ _ _ => False) (-g, -g) (by rw [List.getElem?_replicate, if_pos hi])
      ⟨⟨Or.inl rfl, by rintro x (h | ⟨_, _, _, _, h, _⟩); exacts [h.le, h.elim]⟩,
        ⟨Or.inl rfl, by rintro x (h | ⟨_, _, _, _, h, _⟩); exacts [h.le, h.elim]⟩⟩
    exact ⟨a, h1, by simpa only [false_or] using h2⟩
  induction files with
  | nil =>
    intro st P a h1 h2
    exact ⟨a, h1, by simpa [Seen] using h2⟩
  | cons f files ih =>
    intro st P a h1 h2
    rw [List.foldl_cons]
    have hfl : ∃ ts, f[i]? = some ts :=
      ⟨_, List.getElem?_eq_getElem (show i < f.length by rw [hf f List.mem_cons_self]; exact hi)⟩
    obtain ⟨ts, hts⟩ := hfl
    obtain ⟨a', h3, h4⟩ := ih (fun g hg => hf g (List.mem_cons_of_mem _ hg))
      (List.zipWith (fun a ts => ts.foldl (observe sqrt g) a) st f) _ (ts.foldl (observe sqrt g) a)
      (by rw [List.getElem?_zipWith, h1, hts]) (fold_best sqrt g P ts _ a h2)
    refine ⟨a', h3, ?_⟩
    have : ∀ w z uh vh, ((P w z uh vh ∨ ∃ v ∈ ts, v.Known w z uh vh) ∨ Seen files i w z uh vh) ↔
        (P w z uh vh ∨ Seen (f :: files) i w z uh vh) := by
      intro w z uh vh
      unfold Seen
      simp only [List.mem_cons, exists_eq_or_imp, hts, Option.some.injEq, exists_eq_left', or_assoc]
    simpa only [Best, this] using h4

end Verif.Damage
