import Verif.MaxOps.PropsStage
import Verif.Par.Sample

/-! C105: one triangle in which the water rises and falls. -/

namespace Verif.MaxOps

/-- Bed at 1, momentum (3, 4). -/
noncomputable def wave (w : ℝ) : State 1 := fun _ => ⟨w, 1, 3, 4⟩

noncomputable def waves : List (ℝ × State 1) := [(0, wave 9), (1, wave 2), (2, wave 6), (3, wave 3), (4, wave 8), (5, wave 3)]

theorem five : Real.sqrt (3 ^ 2 + 4 ^ 2) = 5 := by
  rw [show (3 : ℝ) ^ 2 + 4 ^ 2 = 5 ^ 2 by norm_num]
  exact Real.sqrt_sq (by norm_num)

/-- With frequency 2 from time 0 the calls at times 2 and 4 would be second and fourth of those after 0: the stages 6 and 8 are collected; the 9 at time 0 is not. -/
example : ∃ o, mk 1 0.1 2 0 none = some o ∧ (calls o waves).stage 0 = 8 ∧ (calls o waves).depth 0 = 7 ∧ (calls o waves).speedDepth 0 = 5 ∧
    (calls o waves).speed 0 = 1 := by
  refine ⟨_, by unfold mk; rw [if_pos (by norm_num)], ?_, ?_, ?_, ?_⟩ <;>
    simp only [calls, waves, List.foldl_cons, List.foldl_nil, call, collect, wave, five, maxFloat] <;> norm_num

/-- `C105_maxima`, `C105_speed`, `C105_product`: their hypotheses hold, and the state at time 4 is collected. -/
example : ∃ o, mk 1 0.1 ((2 : ℕ) : ℝ) 0 none = some o ∧ Sampled 0 2 waves (wave 8) ∧ (0.1 : ℝ) ≤ (none : Option ℝ).getD 0.1 ∧
    ∀ q, Sampled 0 2 waves q → (none : Option ℝ).getD 0.1 < (q 0).stage - (q 0).elev := by
  refine ⟨_, by unfold mk; rw [if_pos (by norm_num)], ⟨4, 4, rfl, by norm_num, ?_⟩, le_rfl, ?_⟩
  · unfold after waves
    norm_num
  · rintro q ⟨k, t, hk, _⟩
    have := List.mem_of_getElem? hk
    simp only [waves, List.mem_cons, Prod.mk.injEq, List.not_mem_nil, or_false] at this
    rcases this with ⟨_, rfl⟩ | ⟨_, rfl⟩ | ⟨_, rfl⟩ | ⟨_, rfl⟩ | ⟨_, rfl⟩ | ⟨_, rfl⟩ <;> norm_num [wave]

/-- `C105_depth`: a triangle which stays dry is given the minimum height. -/
example : ∃ o, mk 1 0.1 ((1 : ℕ) : ℝ) 0 none = some o ∧ (calls o [(1, wave 1)]).depth 0 = 0.1 := by
  refine ⟨_, by unfold mk; rw [if_pos (by norm_num)], ?_⟩
  simp only [calls, List.foldl_cons, List.foldl_nil, call, collect, wave]
  norm_num

/-- `C105_speed_of_dry`. -/
example : ∃ o, mk 1 0.1 1 0 (some 0) = some o ∧ (calls o [(1, wave 0)]).speed 0 = 50 := by
  obtain ⟨o, ho⟩ : ∃ o, mk 1 0.1 1 0 (some 0) = some o := ⟨_, by unfold mk; rw [if_pos (by norm_num)]⟩
  refine ⟨o, ho, ?_⟩
  rw [C105_speed_of_dry ho (by norm_num) 1 (by norm_num) (wave 0) 0 (by norm_num [wave]) (by norm_num)]
  simp only [wave, five]
  norm_num

/-- `C105_fraction`: one and a half. -/
example : (0 : ℝ) < 1.5 ∧ ∀ k : ℕ, (k : ℝ) ≠ 1.5 := by
  refine ⟨by norm_num, ?_⟩
  intro k hk
  have h2 : ((2 * k : ℕ) : ℝ) = (3 : ℕ) := by push_cast; rw [hk]; norm_num
  have : 2 * k = 3 := by exact_mod_cast h2
  omega

/-- `C105_steps`: two steps of 1 from time 0; by Euler's method only the second is collected. -/
example : ¬ Sampled 0 1 (callsOf .euler 0 [(1, wave 5), (1, wave 4)]) (wave 5) ∧ Sampled 0 1 (callsOf .euler 0 [(1, wave 5), (1, wave 4)]) (wave 4) ∧
    Sampled 0 1 (callsOf .rk2 0 [(1, wave 5), (1, wave 4)]) (wave 5) := by
  refine ⟨?_, ?_, ?_⟩
  · rw [C105_steps]
    rintro ⟨k, dt, hk, hs⟩
    match k with
    | 0 => norm_num at hs
    | 1 =>
      simp only [List.getElem?_cons_succ, List.getElem?_cons_zero, Option.some.injEq, Prod.mk.injEq] at hk
      have := congrFun hk.2 0
      simp only [wave, Cell.mk.injEq] at this
      norm_num at this
    | k + 2 => simp at hk
  · exact (C105_steps _ _ _ _ _).mpr ⟨1, 1, rfl, by norm_num⟩
  · exact (C105_steps _ _ _ _ _).mpr ⟨0, 1, rfl, by rw [if_neg (by decide)]; norm_num⟩

/-- `C105_mean`: a stage whose centroid value is the mean. -/
example : ∀ x ∈ [(⟨fun _ k => if k = 2 then 5 else 2, fun _ _ => 0, fun _ => 3⟩ : Values 1)], x.centroid 0 = (x.vertex 0 0 + x.vertex 0 1 + x.vertex 0 2) / 3 := by
  simp only [List.mem_singleton]
  rintro x rfl
  simp only
  rw [if_neg (by decide), if_neg (by decide)]
  norm_num

open Verif.Par in
/-- Any serial states on any local mesh, with nonsense in the ghosts. -/
theorem fill (a : Local) (n : ℕ) [NeZero n] (states : List (ℝ × State n)) :
    ∃ l : List (ℝ × State a.tris.length × State n), l.map (fun c => (c.1, c.2.2)) = states ∧
      ∀ c ∈ l, ∀ (k : Fin a.tris.length) (t : Fin n), k.1 < a.nFull → a.triL2g[k.1]? = some t.1 → c.2.1 k = c.2.2 t := by
  refine ⟨states.map fun c => (c.1, fun k => if k.1 < a.nFull then c.2 (Fin.ofNat n (a.triL2g.getD k.1 0)) else ⟨-9999, 0, 0, 0⟩, c.2), ?_, ?_⟩
  · rw [List.map_map]
    exact List.map_id _
  · intro c hc k t hk ht
    obtain ⟨s, _, rfl⟩ := List.mem_map.mp hc
    simp only
    rw [if_pos hk, List.getD_eq_getElem?_getD, ht]
    have : Fin.ofNat n ((some t.1).getD 0) = t := Fin.ext (Nat.mod_eq_of_lt t.2)
    rw [this]

open Verif.Par in
/-- `C105_parallel`: processor 0 of the strip of six triangles has ghosts; the states are those of `fill`. -/
example : ∃ m parts, ∃ a : Local, (stripTags.map Prod.fst).Nodup ∧ Mesh.buildMesh strip stripTags = .ok m ∧
    stripPart.length = strip.length ∧ distribute 2 1 stripPart strip m.boundary = .ok parts ∧ parts[0]? = some a ∧ a.nFull < a.tris.length :=
  ⟨_, _, _, by decide, rfl, rfl, rfl, rfl, by decide +kernel⟩

end Verif.MaxOps
