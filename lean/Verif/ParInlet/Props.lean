import Verif.ParInlet.Lemmas

/-! # C96: an inlet shared by several processors -/

set_option linter.unusedSectionVars false

namespace Verif.ParInlet

open Verif.Ops

variable {K : Type*} [Field K] [LinearOrder K] [IsStrictOrderedRing K] {N : ℕ → ℕ} {n : ℕ}

/-! ## Level filling -/

theorem newStages_max (g : Gathered K) (procs : List ℕ) (volume : K) (f : Fill K) (h : Done g procs volume f) (p : ℕ) (hp : p ∈ procs)
    (j : Fin (g.len p)) :
    newStages g p (f.pos p) (f.prev + (volume - f.volume) / f.area) j = max (g.stage p j) (f.prev + (volume - f.volume) / f.area) := by
  have e : g.stage p j = g.st p ((g.order p).symm j).val := by
    rw [st_of_lt g ((g.order p).symm j).isLt]
    simp
  have hd : 0 ≤ (volume - f.volume) / f.area := div_nonneg (by linarith [h.volLe]) h.areaPos.le
  unfold newStages
  split_ifs with hlt
  · rw [max_eq_right]
    have := h.low p hp _ hlt
    rw [e]
    linarith
  · rw [max_eq_left]
    rw [e]
    exact h.next p hp _ (not_lt.1 hlt) ((g.order p).symm j).isLt

theorem added_one (g : Gathered K) (p pos : ℕ) (hpos : pos ≤ g.len p) (level : K) :
    ∑ j, g.area p j * (newStages g p pos level j - g.stage p j) =
      ∑ r ∈ Finset.range pos, g.nextArea p r * (level - g.st p r) := by
  have e1 : ∑ j, g.area p j * (newStages g p pos level j - g.stage p j) =
      ∑ r : Fin (g.len p), if r.val < pos then g.nextArea p r.val * (level - g.st p r.val) else 0 := by
    rw [← Equiv.sum_comp (g.order p)]
    refine Finset.sum_congr rfl fun r _ => ?_
    unfold newStages Gathered.nextArea
    rw [Equiv.symm_apply_apply, dif_pos r.isLt, st_of_lt g r.isLt]
    split_ifs
    · rfl
    · ring
  rw [e1, Fin.sum_univ_eq_sum_range (fun r => if r < pos then g.nextArea p r * (level - g.st p r) else 0), ← Finset.sum_filter]
  congr 1
  ext r
  simp only [Finset.mem_filter, Finset.mem_range]
  omega

theorem added_all (g : Gathered K) (procs : List ℕ) (volume : K) (f : Fill K) (h : Done g procs volume f) :
    ∑ p ∈ procs.toFinset, ∑ j, g.area p j * (newStages g p (f.pos p) (f.prev + (volume - f.volume) / f.area) j - g.stage p j) =
      volume := by
  have e : ∀ p ∈ procs.toFinset, ∑ j, g.area p j * (newStages g p (f.pos p) (f.prev + (volume - f.volume) / f.area) j - g.stage p j) =
      ∑ r ∈ Finset.range (f.pos p), (g.nextArea p r * (f.prev - g.st p r) + g.nextArea p r * ((volume - f.volume) / f.area)) := by
    intro p hp
    rw [added_one g p _ (h.bound p (by simpa using hp))]
    exact Finset.sum_congr rfl fun r _ => by ring
  rw [Finset.sum_congr rfl e]
  simp only [Finset.sum_add_distrib]
  have h1 := h.volEq
  have h2 := h.areaEq
  unfold over at h1 h2
  simp only [← Finset.sum_mul]
  rw [← h1, ← h2, mul_div_cancel₀ _ h.areaPos.ne']
  ring

/-- **C96.** Level filling over several processors: whoever is master, in whatever order the processors are listed and however each
processor orders equal stages, there is one level to which every triangle of the inlet below it is raised, the others are left alone,
the water added over all processors together is exactly the volume, and nothing else changes. -/
theorem C96_level (srt : Argsort K) (hsrt : GoodSort srt) (top : K) (d : Doms K N) (s : States K N) (ops : InletOps K N)
    (master : ℕ) (procs : List ℕ) (hm : master ∈ procs) (hl : Listed ops procs) (ha : ∀ p i, 0 < (d p).area i)
    (hne : Nonempty ops procs) (htop : Below top s ops procs) (volume : K) (hv : 0 ≤ volume) :
    ∃ s', setStagesEvenly srt top d s ops master procs volume = .ok s' ∧
      (∃ level, ∀ p ∈ procs, ∀ i ∈ (ops p).tri, (s' p).stage i = max ((s p).stage i) level) ∧
      (∀ p ∈ procs, ∀ i, i ∉ (ops p).tri → (s' p).stage i = (s p).stage i) ∧
      (∀ p, p ∉ procs → s' p = s p) ∧
      sharedWater d s' ops procs = sharedWater d s ops procs + volume ∧
      ∀ p, (s' p).elev = (s p).elev ∧ (s' p).xmom = (s p).xmom ∧ (s' p).ymom = (s p).ymom ∧ (s' p).booked = (s p).booked := by
  obtain ⟨f, hf, hdone⟩ := merge_done (collect srt d s ops) top master procs hm hl.1
    (fun p _ => hsrt _ _) volume hv (fun p _ j => ha p _) (fun p hp j => htop p hp _ (List.getElem_mem _))
    (by
      obtain ⟨p, hp, h⟩ := hne
      exact ⟨p, hp, List.length_pos_of_ne_nil h⟩)
  set level := f.prev + (volume - f.volume) / f.area with hlevel
  have hput : ∀ p ∈ procs, ∀ j : Fin (ops p).tri.length,
      put (s p).stage (ops p).tri (List.ofFn (newStages (collect srt d s ops) p (f.pos p) level)) (ops p).tri[j] =
        newStages (collect srt d s ops) p (f.pos p) level j := fun p hp j => put_ofFn _ (hl.2 p hp) _ _ j
  refine ⟨_, by unfold setStagesEvenly; simp only; rw [hf], ⟨level, fun p hp i hi => ?_⟩, fun p hp i hi => ?_, fun p hp => ?_, ?_,
    fun p => ?_⟩
  · obtain ⟨j, hj, rfl⟩ := List.getElem_of_mem hi
    rw [if_pos hp]
    exact (hput p hp ⟨j, hj⟩).trans (newStages_max _ procs volume f hdone p hp ⟨j, hj⟩)
  · rw [if_pos hp]
    exact put_notMem _ _ _ _ hi
  · rw [if_neg hp]
  · have hall := added_all (collect srt d s ops) procs volume f hdone
    rw [← hlevel] at hall
    conv_rhs => rw [← hall]
    unfold sharedWater
    rw [← Finset.sum_add_distrib]
    refine Finset.sum_congr rfl fun p hp => ?_
    have hp' : p ∈ procs := by simpa using hp
    simp only [if_pos hp']
    rw [List.sum_toFinset _ (hl.2 p hp'), List.sum_toFinset _ (hl.2 p hp'), ← sum_fin_list, ← sum_fin_list]
    change _ = _ + ∑ j : Fin (ops p).tri.length, (d p).area (ops p).tri[j] *
      (newStages (collect srt d s ops) p (f.pos p) level j - (s p).stage (ops p).tri[j])
    rw [← Finset.sum_add_distrib]
    refine Finset.sum_congr rfl fun j _ => ?_
    rw [hput p hp' j]
    ring
  · by_cases hp : p ∈ procs
    · rw [if_pos hp]
      exact ⟨rfl, rfl, rfl, rfl⟩
    · rw [if_neg hp]
      exact ⟨rfl, rfl, rfl, rfl⟩

/-! ## The same inlet on one processor -/

/-- A sum over the inlet is the sum over the parts. -/
theorem shared_sum (d0 : Dom K n) (tri0 : Inlet n) (d : Doms K N) (ops : InletOps K N) (procs : List ℕ)
    (home : (p : ℕ) → Fin (N p) → Fin n) (h : Shared d0 tri0 d ops procs home) (f : Fin n → K) :
    ∑ p ∈ procs.toFinset, ∑ i ∈ (ops p).tri.toFinset, f (home p i) = ∑ g ∈ tri0.toFinset, f g := by
  rw [Finset.sum_sigma']
  refine Finset.sum_bij (fun x _ => home x.1 x.2) ?_ ?_ ?_ ?_
  · rintro ⟨p, i⟩ hx
    simp only [Finset.mem_sigma, List.mem_toFinset] at hx ⊢
    exact h.lands p hx.1 i hx.2
  · rintro ⟨p, i⟩ hx ⟨q, j⟩ hy he
    simp only [Finset.mem_sigma, List.mem_toFinset] at hx hy
    obtain ⟨rfl, h2⟩ := h.once p hx.1 q hy.1 i hx.2 j hy.2 he
    rw [Fin.ext h2]
  · intro g hg
    simp only [List.mem_toFinset] at hg
    obtain ⟨p, hp, i, hi, rfl⟩ := h.covers g hg
    exact ⟨⟨p, i⟩, by simp [hp, hi], rfl⟩
  · intros
    rfl

theorem water_same (d0 : Dom K n) (tri0 : Inlet n) (d : Doms K N) (ops : InletOps K N) (procs : List ℕ)
    (home : (p : ℕ) → Fin (N p) → Fin n) (h : Shared d0 tri0 d ops procs home) (s0 : State K n) (s : States K N)
    (hs : SameFlow s0 s ops procs home) : sharedWater d s ops procs = waterIn d0 s0 tri0.toFinset := by
  unfold sharedWater waterIn State.depth
  rw [← shared_sum d0 tri0 d ops procs home h]
  refine Finset.sum_congr rfl fun p hp => Finset.sum_congr rfl fun i hi => ?_
  obtain ⟨h1, h2, -, -⟩ := hs p (by simpa using hp) i (by simpa using hi)
  rw [h1, h2, h.area p (by simpa using hp) i (by simpa using hi)]

theorem globalVolume_eq (d : Doms K N) (s : States K N) (ops : InletOps K N) (master : ℕ) (procs : List ℕ) (hm : master ∈ procs)
    (hl : Listed ops procs) : globalVolume d s ops master procs = sharedWater d s ops procs := by
  unfold globalVolume
  rw [gather_eq master procs hm hl.1]
  unfold sharedWater
  refine Finset.sum_congr rfl fun p hp => ?_
  rw [volume_eq _ _ _ (hl.2 p (by simpa using hp))]
  rfl

theorem globalArea_eq (d0 : Dom K n) (tri0 : Inlet n) (hnd : tri0.Nodup) (d : Doms K N) (ops : InletOps K N) (master : ℕ)
    (procs : List ℕ) (hm : master ∈ procs) (hl : Listed ops procs) (home : (p : ℕ) → Fin (N p) → Fin n)
    (h : Shared d0 tri0 d ops procs home) : globalArea d ops master procs = Inlet.area d0 tri0 := by
  unfold globalArea Inlet.area
  rw [gather_eq master procs hm hl.1, ← List.sum_toFinset _ hnd, ← shared_sum d0 tri0 d ops procs home h]
  refine Finset.sum_congr rfl fun p hp => ?_
  rw [← List.sum_toFinset _ (hl.2 p (by simpa using hp))]
  exact Finset.sum_congr rfl fun i hi => h.area p (by simpa using hp) i (by simpa using hi)

/-- **C96.** The areas, volumes and averages that the master gathers are those of the inlet on one processor. -/
theorem C96_averages (d0 : Dom K n) (tri0 : Inlet n) (hne : tri0 ≠ []) (hnd : tri0.Nodup) (ha : ∀ i, 0 < d0.area i) (d : Doms K N)
    (ops : InletOps K N) (master : ℕ) (procs : List ℕ) (hm : master ∈ procs) (hl : Listed ops procs)
    (home : (p : ℕ) → Fin (N p) → Fin n) (h : Shared d0 tri0 d ops procs home) (s0 : State K n) (s : States K N)
    (hs : SameFlow s0 s ops procs home) (a0 : Fin n → K) (a : (p : ℕ) → Fin (N p) → K)
    (hsame : ∀ p ∈ procs, ∀ i ∈ (ops p).tri, a p i = a0 (home p i)) :
    globalArea d ops master procs = Inlet.area d0 tri0 ∧ globalVolume d s ops master procs = Inlet.volume d0 s0 tri0 ∧
      globalAverage d ops master procs a = Inlet.average d0 tri0 a0 ∧
      globalAverageDepth d s ops master procs = Inlet.averageDepth d0 s0 tri0 := by
  have hA := globalArea_eq d0 tri0 hnd d ops master procs hm hl home h
  have hV : globalVolume d s ops master procs = Inlet.volume d0 s0 tri0 := by
    rw [globalVolume_eq d s ops master procs hm hl, volume_eq d0 s0 tri0 hnd, water_same d0 tri0 d ops procs home h s0 s hs]
  have hpos := area_pos d0 tri0 hne ha
  refine ⟨hA, hV, ?_, ?_⟩
  · unfold globalAverage Inlet.average
    simp only
    rw [hA, if_pos hpos]
    congr 1
    rw [gather_eq master procs hm hl.1, ← List.sum_toFinset _ hnd, ← shared_sum d0 tri0 d ops procs home h]
    refine Finset.sum_congr rfl fun p hp => ?_
    rw [← List.sum_toFinset _ (hl.2 p (by simpa using hp))]
    refine Finset.sum_congr rfl fun i hi => ?_
    rw [h.area p (by simpa using hp) i (by simpa using hi), hsame p (by simpa using hp) i (by simpa using hi)]
  · unfold globalAverageDepth Inlet.averageDepth
    simp only
    rw [hA, hV, if_pos hpos]

/-- Two level fillings that add the same water are the same. -/
theorem level_unique (d0 : Dom K n) (c : Finset (Fin n)) (ha : ∀ i, 0 < d0.area i) (st f g : Fin n → K) (a b : K)
    (hf : ∀ i ∈ c, f i = max (st i) a) (hg : ∀ i ∈ c, g i = max (st i) b)
    (hsum : ∑ i ∈ c, d0.area i * f i = ∑ i ∈ c, d0.area i * g i) : ∀ i ∈ c, f i = g i := by
  have aux : ∀ (f g : Fin n → K) (a b : K), (∀ i ∈ c, f i = max (st i) a) → (∀ i ∈ c, g i = max (st i) b) → a ≤ b →
      ∑ i ∈ c, d0.area i * f i = ∑ i ∈ c, d0.area i * g i → ∀ i ∈ c, f i = g i := by
    intro f g a b hf hg hab hsum i hi
    have hle : ∀ j ∈ c, f j ≤ g j := fun j hj => by rw [hf j hj, hg j hj]; exact max_le_max (le_refl _) hab
    by_contra hne
    have : ∑ i ∈ c, d0.area i * f i < ∑ i ∈ c, d0.area i * g i :=
      Finset.sum_lt_sum (fun j hj => mul_le_mul_of_nonneg_left (hle j hj) (ha j).le)
        ⟨i, hi, mul_lt_mul_of_pos_left (lt_of_le_of_ne (hle i hi) hne) (ha i)⟩
    exact absurd hsum this.ne
  rcases le_total a b with h | h
  · exact aux f g a b hf hg h hsum
  · intro i hi
    exact (aux g f b a hg hf h hsum.symm i hi).symm

end Verif.ParInlet
