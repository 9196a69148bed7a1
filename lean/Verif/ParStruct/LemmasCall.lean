import Verif.ParStruct.Lemmas

/-! # The call as a whole -/

namespace Verif.ParStruct

open Verif.Ops Verif.Culvert

set_option linter.unusedSectionVars false

variable {N : ℕ → ℕ} {n : ℕ}

theorem Cut.shared {g : Group} {d0 : Dom ℝ n} {tri0 : Bool → Inlet n} {w : (p : ℕ) → Part (N p)} {home : (p : ℕ) → Fin (N p) → Fin n}
    (h : Cut g d0 tri0 w home) (i : Bool) :
    ParInlet.Shared d0 (tri0 i) (fun p => (w p).dom) (inletOps w i) (g.inletProcs i) home :=
  ⟨h.lands i, h.covers i, h.once i i, h.area i⟩

theorem Agrees.same {g : Group} {s0 : State ℝ n} {w : (p : ℕ) → Part (N p)} {home : (p : ℕ) → Fin (N p) → Fin n}
    (h : Agrees g s0 w home) (i : Bool) : ParInlet.SameFlow s0 (fun p => (w p).state) (inletOps w i) (g.inletProcs i) home := h i

section
variable {g : Group} (hg : Fits g) {d0 : Dom ℝ n} (ha : ∀ t, 0 < d0.area t) {tri0 : Bool → Inlet n} (hne : ∀ i, tri0 i ≠ [])
  {w : (p : ℕ) → Part (N p)} {home : (p : ℕ) → Fin (N p) → Fin n} (hc : Cut g d0 tri0 w home) {s0 : State ℝ n} (hs : Agrees g s0 w home)
include hg ha hne hc hs

theorem average_serial (i : Bool) (a : (p : ℕ) → Fin (N p) → ℝ) (a0 : Fin n → ℝ)
    (haa : ∀ p ∈ g.inletProcs i, ∀ j ∈ (w p).tri i, a p j = a0 (home p j)) :
    ∃ r, Phase (g.inletProcs i) (fun p => averageP g i p (w p) (a p)) r ∧ r (g.inletMaster i) = Inlet.average d0 (tri0 i) a0 := by
  obtain ⟨r, h1, h2⟩ := average_phase hg i w a
  refine ⟨r, h1, h2.trans ?_⟩
  exact (ParInlet.C96_averages d0 (tri0 i) (hne i) (hc.nodup0 i) ha _ (inletOps w i) _ _ (hg.inletMaster i) ⟨hg.inletNodup i, hc.nodup i⟩
    home (hc.shared i) s0 _ (hs.same i) a0 a haa).2.2.1

theorem area_serial (i : Bool) :
    ∃ r, Phase (g.inletProcs i) (fun p => areaP g i p (w p)) r ∧ r (g.inletMaster i) = Inlet.area d0 (tri0 i) := by
  obtain ⟨r, h1, h2⟩ := area_phase hg i w
  refine ⟨r, h1, h2.trans ?_⟩
  exact ParInlet.globalArea_eq d0 (tri0 i) (hc.nodup0 i) _ (inletOps w i) _ _ (hg.inletMaster i) ⟨hg.inletNodup i, hc.nodup i⟩
    home (hc.shared i)

theorem inflow_phase (i : Bool) :
    ∃ r, Phase g.procs (fun p => inflowP g i p (w p)) r ∧ r (g.inletMaster i) =
      [Msg.num (Inlet.averageDepth d0 s0 (tri0 i)), .num (Inlet.average d0 (tri0 i) s0.stage), .num (Inlet.average d0 (tri0 i) s0.xmom),
        .num (Inlet.average d0 (tri0 i) s0.ymom), .num (Inlet.area d0 (tri0 i))] := by
  obtain ⟨r1, h1, e1⟩ := average_serial hg ha hne hc hs i (fun p => (w p).depth) (fun t => s0.stage t - s0.elev t)
    fun p hp j hj => by
      unfold Part.depth
      rw [(hs i p hp j hj).1, (hs i p hp j hj).2.1]
  obtain ⟨r2, h2, e2⟩ := average_serial hg ha hne hc hs i (fun p => (w p).state.stage) s0.stage fun p hp j hj => (hs i p hp j hj).1
  obtain ⟨r3, h3, e3⟩ := average_serial hg ha hne hc hs i (fun p => (w p).state.xmom) s0.xmom fun p hp j hj => (hs i p hp j hj).2.2.1
  obtain ⟨r4, h4, e4⟩ := average_serial hg ha hne hc hs i (fun p => (w p).state.ymom) s0.ymom fun p hp j hj => (hs i p hp j hj).2.2.2
  obtain ⟨r5, h5, e5⟩ := area_serial hg ha hne hc hs i
  refine ⟨_, Phase.among (hg.sub i) (f := fun p => (averageP g i p (w p) (w p).depth).bind fun d =>
    (averageP g i p (w p) (w p).state.stage).bind fun s =>
    (averageP g i p (w p) (w p).state.xmom).bind fun x =>
    (averageP g i p (w p) (w p).state.ymom).bind fun y =>
    (areaP g i p (w p)).bind fun A =>
    .done [Msg.num d, .num s, .num x, .num y, .num A])
    (Phase.bind h1 (Phase.bind h2 (Phase.bind h3 (Phase.bind h4 (Phase.bind h5 (Phase.done _ _)))))) fun _ => [], ?_⟩
  rw [if_pos (hg.inletMaster i), e1, e2, e3, e4, e5]
  rfl

theorem outflow_phase (o : Opts) (i : Bool) :
    ∃ r, Phase g.procs (fun p => outflowP g o i p (w p)) r ∧ r (g.inletMaster i) =
      [Msg.num (Inlet.area d0 (tri0 i)), .num (Inlet.averageDepth d0 s0 (tri0 i)), .vec (o.dir i).1 (o.dir i).2,
        .num (Inlet.average d0 (tri0 i) s0.xmom), .num (Inlet.average d0 (tri0 i) s0.ymom)] := by
  obtain ⟨r1, h1, e1⟩ := average_serial hg ha hne hc hs i (fun p => (w p).depth) (fun t => s0.stage t - s0.elev t)
    fun p hp j hj => by
      unfold Part.depth
      rw [(hs i p hp j hj).1, (hs i p hp j hj).2.1]
  obtain ⟨r3, h3, e3⟩ := average_serial hg ha hne hc hs i (fun p => (w p).state.xmom) s0.xmom fun p hp j hj => (hs i p hp j hj).2.2.1
  obtain ⟨r4, h4, e4⟩ := average_serial hg ha hne hc hs i (fun p => (w p).state.ymom) s0.ymom fun p hp j hj => (hs i p hp j hj).2.2.2
  obtain ⟨r5, h5, e5⟩ := area_serial hg ha hne hc hs i
  refine ⟨_, Phase.among (hg.sub i) (f := fun p => (areaP g i p (w p)).bind fun A =>
    (averageP g i p (w p) (w p).depth).bind fun d =>
    (averageP g i p (w p) (w p).state.xmom).bind fun x =>
    (averageP g i p (w p) (w p).state.ymom).bind fun y =>
    .done [Msg.num A, .num d, .vec (o.dir i).1 (o.dir i).2, .num x, .num y])
    (Phase.bind h5 (Phase.bind h1 (Phase.bind h3 (Phase.bind h4 (Phase.done _ _))))) fun _ => [], ?_⟩
  rw [if_pos (hg.inletMaster i), e1, e3, e4, e5]
  rfl

end

/-- Depth and momentum of an inlet set on one processor. -/
noncomputable def setInlet (s : State ℝ n) (tri : Inlet n) (d x y : ℝ) : State ℝ n := Inlet.setMoms (Inlet.setDepths s tri d) tri x y

/-- A processor after `write`. -/
noncomputable def wrote (g : Group) (i : Bool) (d x y : ℝ) (p : ℕ) (w : Part n) : Part n :=
  if p ∈ g.inletProcs i then { w with state := setInlet w.state (w.tri i) d x y } else w

theorem setInlet_at (s : State ℝ n) (tri : Inlet n) (d x y : ℝ) (j : Fin n) :
    (setInlet s tri d x y).stage j = (if j ∈ tri then s.elev j + d else s.stage j) ∧
      (setInlet s tri d x y).xmom j = (if j ∈ tri then x else s.xmom j) ∧ (setInlet s tri d x y).ymom j = (if j ∈ tri then y else s.ymom j) :=
  ⟨put_map tri (fun i => s.elev i + d) s.stage j, put_map tri (fun _ => x) s.xmom j, put_map tri (fun _ => y) s.ymom j⟩

theorem wrote_dom (g : Group) (i : Bool) (d x y : ℝ) (p : ℕ) (w : Part n) : (wrote g i d x y p w).dom = w.dom := by
  unfold wrote; split_ifs <;> rfl

theorem wrote_tri (g : Group) (i : Bool) (d x y : ℝ) (p : ℕ) (w : Part n) : (wrote g i d x y p w).tri = w.tri := by
  unfold wrote; split_ifs <;> rfl

theorem wrote_stats (g : Group) (i : Bool) (d x y : ℝ) (p : ℕ) (w : Part n) : (wrote g i d x y p w).stats = w.stats := by
  unfold wrote; split_ifs <;> rfl

theorem wrote_rest (g : Group) (i : Bool) (d x y : ℝ) (p : ℕ) (w : Part n) : (wrote g i d x y p w).state.elev = w.state.elev ∧
    (wrote g i d x y p w).state.height = w.state.height ∧ (wrote g i d x y p w).state.booked = w.state.booked ∧
    (wrote g i d x y p w).state.boundary = w.state.boundary := by
  unfold wrote; split_ifs <;> exact ⟨rfl, rfl, rfl, rfl⟩

theorem wrote_out (g : Group) (i : Bool) (d x y : ℝ) (p : ℕ) (w : Part n) (j : Fin n) (h : p ∈ g.inletProcs i → j ∉ w.tri i) :
    (wrote g i d x y p w).state.stage j = w.state.stage j ∧ (wrote g i d x y p w).state.xmom j = w.state.xmom j ∧
      (wrote g i d x y p w).state.ymom j = w.state.ymom j := by
  unfold wrote
  by_cases hp : p ∈ g.inletProcs i
  · rw [if_pos hp]
    obtain ⟨h1, h2, h3⟩ := setInlet_at w.state (w.tri i) d x y j
    rw [if_neg (h hp)] at h1 h2 h3
    exact ⟨h1, h2, h3⟩
  · rw [if_neg hp]
    exact ⟨rfl, rfl, rfl⟩

theorem write_eq (g : Group) (i : Bool) (d x y : ℝ) (p m : ℕ) (w : Part n) :
    write g i p w (if p = m then [Msg.num d, .num x, .num y] else if p ∈ g.inletProcs i then [Msg.num d, .num x, .num y] else [])
      = some (wrote g i d x y p w) := by
  unfold wrote
  by_cases hp : p ∈ g.inletProcs i
  · by_cases hm : p = m <;> simp only [hm, hp, if_true, if_false, write, setInlet]
  · by_cases hm : p = m
    · rw [if_pos hm, if_neg hp]
      simp only [write, if_neg hp]
    · rw [if_neg hm, if_neg hp, if_neg hp]
      simp only [write, if_neg hp]

theorem Cut.wrote {g : Group} {d0 : Dom ℝ n} {tri0 : Bool → Inlet n} {w : (p : ℕ) → Part (N p)} {home : (p : ℕ) → Fin (N p) → Fin n}
    (h : Cut g d0 tri0 w home) (i : Bool) (d x y : ℝ) : Cut g d0 tri0 (fun p => wrote g i d x y p (w p)) home := by
  constructor
  · exact h.nodup0
  · intro i p hp; rw [wrote_tri]; exact h.nodup i p hp
  · intro i p hp; rw [wrote_tri]; exact h.lands i p hp
  · intro i t ht
    obtain ⟨p, hp, j, hj, e⟩ := h.covers i t ht
    exact ⟨p, hp, j, by rw [wrote_tri]; exact hj, e⟩
  · intro i k p hp q hq; rw [wrote_tri, wrote_tri]; exact h.once i k p hp q hq
  · intro i p hp; rw [wrote_tri, wrote_dom]; exact h.area i p hp

theorem Cut.mem_iff {g : Group} {d0 : Dom ℝ n} {tri0 : Bool → Inlet n} {w : (p : ℕ) → Part (N p)} {home : (p : ℕ) → Fin (N p) → Fin n}
    (h : Cut g d0 tri0 w home) (i k : Bool) {p : ℕ} (hp : p ∈ g.inletProcs k) {j : Fin (N p)} (hj : j ∈ (w p).tri k) :
    home p j ∈ tri0 i ↔ p ∈ g.inletProcs i ∧ j ∈ (w p).tri i := by
  constructor
  · intro hm
    obtain ⟨q, hq, l, hl, e⟩ := h.covers i _ hm
    obtain ⟨h1, h2⟩ := h.once i k q hq p hp l hl j hj e
    subst h1
    exact ⟨hq, Fin.ext h2 ▸ hl⟩
  · rintro ⟨h1, h2⟩
    exact h.lands i p h1 j h2

theorem Agrees.wrote {g : Group} {d0 : Dom ℝ n} {tri0 : Bool → Inlet n} {w : (p : ℕ) → Part (N p)} {home : (p : ℕ) → Fin (N p) → Fin n}
    (h : Cut g d0 tri0 w home) {s0 : State ℝ n} (hs : Agrees g s0 w home) (i : Bool) (d x y : ℝ) :
    Agrees g (setInlet s0 (tri0 i) d x y) (fun p => wrote g i d x y p (w p)) home := by
  intro k p hp j hj
  rw [wrote_tri] at hj
  obtain ⟨e1, e2, e3, e4⟩ := hs k p hp j hj
  obtain ⟨a1, a2, a3⟩ := setInlet_at s0 (tri0 i) d x y (home p j)
  have hel := (wrote_rest g i d x y p (w p)).1
  rw [hel]
  have helev : (setInlet s0 (tri0 i) d x y).elev = s0.elev := rfl
  by_cases hm : home p j ∈ tri0 i
  · obtain ⟨b1, b2⟩ := (h.mem_iff i k hp hj).1 hm
    rw [if_pos hm] at a1 a2 a3
    obtain ⟨c1, c2, c3⟩ := setInlet_at (w p).state ((w p).tri i) d x y j
    rw [if_pos b2] at c1 c2 c3
    have hw : (ParStruct.wrote g i d x y p (w p)).state = setInlet (w p).state ((w p).tri i) d x y := by
      unfold ParStruct.wrote; rw [if_pos b1]
    rw [hw, a1, a2, a3, c1, c2, c3, helev, e2]
    exact ⟨rfl, rfl, rfl, rfl⟩
  · obtain ⟨c1, c2, c3⟩ := wrote_out g i d x y p (w p) j fun h1 h2 => hm ((h.mem_iff i k hp hj).2 ⟨h1, h2⟩)
    rw [if_neg hm] at a1 a2 a3
    rw [c1, c2, c3, a1, a2, a3, helev]
    exact ⟨e1, e2, e3, e4⟩

end Verif.ParStruct
