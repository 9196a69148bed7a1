import Verif.Mux.Props

/-! # C110: times of what is read -/

namespace Verif.Mux

set_option linter.unusedSectionVars false

variable {K : Type} [Field K] [LinearOrder K] [IsStrictOrderedRing K]

theorem start_least (n : ℤ) (rows : List (ℕ × Row K)) (a : ℤ) (hrow : IsLeast {x | ∃ r ∈ rows, x = r.2.first} a) (hn : a ≤ n) :
    rows.foldl (fun a r => min a r.2.first) n = a := by
  have key : ∀ (l : List (ℕ × Row K)) (n : ℤ), (∀ r ∈ l, a ≤ r.2.first) → a ≤ n →
      a ≤ l.foldl (fun a r => min a r.2.first) n ∧ l.foldl (fun a r => min a r.2.first) n ≤ n ∧
      ∀ r ∈ l, l.foldl (fun a r => min a r.2.first) n ≤ r.2.first := by
    intro l
    induction l with
    | nil => intro n _ h; exact ⟨h, le_rfl, by simp⟩
    | cons r l ih =>
      intro n h1 h2
      obtain ⟨i1, i2, i3⟩ := ih (min n r.2.first) (fun x hx => h1 x (List.mem_cons_of_mem _ hx)) (le_min h2 (h1 r List.mem_cons_self))
      refine ⟨i1, i2.trans (min_le_left _ _), fun x hx => ?_⟩
      rcases List.mem_cons.1 hx with rfl | hx
      · exact i2.trans (min_le_right _ _)
      · exact i3 x hx
  obtain ⟨r, hr, e⟩ := hrow.1
  obtain ⟨k1, k2, k3⟩ := key rows n (fun x hx => hrow.2 ⟨x, hx, rfl⟩) hn
  exact le_antisymm (e ▸ k3 r hr) k1

theorem finish_greatest (n : ℤ) (rows : List (ℕ × Row K)) (a : ℤ) (hrow : IsGreatest {x | ∃ r ∈ rows, x = r.2.last} a) (hn : n ≤ a) :
    rows.foldl (fun a r => max a r.2.last) n = a := by
  have key : ∀ (l : List (ℕ × Row K)) (n : ℤ), (∀ r ∈ l, r.2.last ≤ a) → n ≤ a →
      l.foldl (fun a r => max a r.2.last) n ≤ a ∧ n ≤ l.foldl (fun a r => max a r.2.last) n ∧
      ∀ r ∈ l, r.2.last ≤ l.foldl (fun a r => max a r.2.last) n := by
    intro l
    induction l with
    | nil => intro n _ h; exact ⟨h, le_rfl, by simp⟩
    | cons r l ih =>
      intro n h1 h2
      obtain ⟨i1, i2, i3⟩ := ih (max n r.2.last) (fun x hx => h1 x (List.mem_cons_of_mem _ hx)) (max_le h2 (h1 r List.mem_cons_self))
      refine ⟨i1, (le_max_left _ _).trans i2, fun x hx => ?_⟩
      rcases List.mem_cons.1 hx with rfl | hx
      · exact (le_max_right _ _).trans i2
      · exact i3 x hx
  obtain ⟨r, hr, e⟩ := hrow.1
  obtain ⟨k1, k2, k3⟩ := key rows n (fun x hx => hrow.2 ⟨x, hx, rfl⟩) hn
  exact le_antisymm k1 (e ▸ k3 r hr)

theorem starttime_eq (dt : K) (hdt : 0 < dt) (rows : List (ℕ × Row K)) (a : ℤ) (hrow : IsLeast {x | ∃ r ∈ rows, x = r.2.first} a)
    (n : K) (hn : dt * (a : K) ≤ n) : rows.foldl (fun b r => min (dt * (r.2.first : K)) b) n = dt * (a : K) := by
  have hmono : ∀ r ∈ rows, dt * (a : K) ≤ dt * (r.2.first : K) := fun r hr =>
    mul_le_mul_of_nonneg_left (by exact_mod_cast hrow.2 ⟨r, hr, rfl⟩) hdt.le
  have key : ∀ (l : List (ℕ × Row K)) (n : K), (∀ r ∈ l, dt * (a : K) ≤ dt * (r.2.first : K)) → dt * (a : K) ≤ n →
      dt * (a : K) ≤ l.foldl (fun b r => min (dt * (r.2.first : K)) b) n ∧ l.foldl (fun b r => min (dt * (r.2.first : K)) b) n ≤ n ∧
      ∀ r ∈ l, l.foldl (fun b r => min (dt * (r.2.first : K)) b) n ≤ dt * (r.2.first : K) := by
    intro l
    induction l with
    | nil => intro n _ h; exact ⟨h, le_rfl, by simp⟩
    | cons r l ih =>
      intro n h1 h2
      obtain ⟨i1, i2, i3⟩ := ih (min (dt * (r.2.first : K)) n) (fun x hx => h1 x (List.mem_cons_of_mem _ hx))
        (le_min (h1 r List.mem_cons_self) h2)
      refine ⟨i1, i2.trans (min_le_right _ _), fun x hx => ?_⟩
      rcases List.mem_cons.1 hx with rfl | hx
      · exact i2.trans (min_le_left _ _)
      · exact i3 x hx
  obtain ⟨r, hr, e⟩ := hrow.1
  obtain ⟨k1, k2, k3⟩ := key rows n hmono hn
  exact le_antisymm (e ▸ k3 r hr) k1

/-- Filtered steps are consecutive. -/
theorem filter_from (n : ℕ) (a : ℤ) (ha : 1 ≤ a) :
    ((List.range n).filter fun (it : ℕ) => decide (a ≤ (it : ℤ) + 1)) = List.range' (a - 1).toNat (n - (a - 1).toNat) := by
  induction n with
  | zero => simp
  | succ n ih =>
    rw [List.range_succ, List.filter_append, ih]
    by_cases h : a ≤ (n : ℤ) + 1
    · have e : n + 1 - (a - 1).toNat = (n - (a - 1).toNat) + 1 := by omega
      rw [e, List.range'_concat]
      congr 1
      simp [h]
    · have e : n + 1 - (a - 1).toNat = n - (a - 1).toNat := by omega
      rw [e]
      simp [h]

/-- Columns: from step `start` to step `finish`. -/
theorem window_get (start finish : ℤ) (hs : 1 ≤ start) (hf : start ≤ finish) (r : Row K) :
    (window start finish r).length = (finish - start + 1).toNat ∧
    ∀ k : ℕ, start + k ≤ finish →
      (window start finish r)[k]? = some (if start + k ≤ r.last then r.vals.getD (start - 1 + k).toNat 0 else 0) := by
  unfold window
  rw [filter_from _ _ hs]
  have hl : finish.toNat - (start - 1).toNat = (finish - start + 1).toNat := by omega
  constructor
  · simp only [List.length_append, List.length_map, List.length_range', List.length_replicate]
    omega
  · intro k hk
    rw [List.getElem?_append_left (by simp only [List.length_map, List.length_range']; omega), List.getElem?_map,
      List.getElem?_range' (by omega)]
    simp only [Option.map_some, Option.some.injEq]
    have e1 : (((start - 1).toNat + 1 * k : ℕ) : ℤ) + 1 = start + k := by push_cast; omega
    have e2 : (start - 1).toNat + 1 * k = (start - 1 + k).toNat := by omega
    rw [e1, e2]

/-- With a first step before 1 column `k` is step `k + 1`. -/
theorem window_get_low (start finish : ℤ) (hs : start ≤ 1) (hf : 0 ≤ finish) (r : Row K) :
    (window start finish r).length = (finish - start + 1).toNat ∧
    ∀ k : ℕ, (k : ℤ) + 1 ≤ finish →
      (window start finish r)[k]? = some (if (k : ℤ) + 1 ≤ r.last then r.vals.getD k 0 else 0) := by
  unfold window
  have hfil : ((List.range finish.toNat).filter fun (it : ℕ) => decide (start ≤ (it : ℤ) + 1)) = List.range finish.toNat :=
    List.filter_eq_self.2 fun it _ => by simp; omega
  rw [hfil]
  constructor
  · simp only [List.length_append, List.length_map, List.length_range, List.length_replicate]
    omega
  · intro k hk
    rw [List.getElem?_append_left (by simp only [List.length_map, List.length_range]; omega), List.getElem?_map,
      List.getElem?_range (by omega)]
    rfl

/-- `read_mux2_py` in terms of the first and last steps of all rows. -/
theorem readPy_ok {srcs : List (Src K)} {nt : ℕ} {dt : K} {weights : List K} {perm : List ℕ} {rows : List (ℕ × Row K)}
    (hne : srcs ≠ []) (hlen : weights.length = srcs.length) (h : readMux2 srcs weights perm = .ok (nt, dt, rows)) (hdt : 0 < dt)
    (hnt : 0 < nt) {start finish : ℤ} (hs : IsLeast {x | ∃ r ∈ rows, x = r.2.first} start)
    (hf : IsGreatest {x | ∃ r ∈ rows, x = r.2.last} finish) (hsf : start < finish) (hfn : finish ≤ nt) (hf0 : 0 ≤ finish)
    (hbig : dt * (start : K) ≤ 10 ^ 16) :
    readPy srcs weights perm = .ok
      { times := (List.range (finish - start + 1).toNat).map fun (k : ℕ) => dt * (k : K)
        lats := rows.map fun r => ((((srcs.head?.map Src.heads).getD [])[r.1]?).map Head.lat).getD 0
        lons := rows.map fun r => ((((srcs.head?.map Src.heads).getD [])[r.1]?).map Head.lon).getD 0
        elevation := rows.map fun r => -((((srcs.head?.map Src.heads).getD [])[r.1]?).map Head.z).getD 0
        quantity := rows.map fun r => window start finish r.2
        starttime := dt * (start : K) } := by
  have e1 : startStep nt rows = start := start_least _ rows start hs (by omega)
  have e2 : finishStep rows = finish := finish_greatest _ rows finish hf (by omega)
  unfold readPy
  rw [if_neg (by
    have : srcs.isEmpty = false := by simpa using hne
    simp [this, hlen]), h]
  simp only
  rw [e1, e2, if_neg (by omega), if_neg (by
    rintro (h | h)
    · exact absurd h (not_le.2 hdt)
    · omega), starttime_eq dt hdt rows start hs _ hbig]

/-- **C110.** If every station asked for records in every source, column `k` holds step `start + k`, where `start` is the first step of any of
them, and its time is the timestep times the number of this step; stations which have ended earlier are zero from then on. -/
theorem C110_times {srcs : List (Src K)} {total nt : ℕ} {dt : K} {v : Src K → ℕ → ℕ → K} (h : Ready srcs total nt dt v)
    (weights : List K) (hlen : weights.length = srcs.length) (perm : List ℕ) (hp : ∀ i ∈ perm, i < total) (hdt : 0 < dt)
    (hrec : ∀ i ∈ chosen total perm, ∀ s ∈ srcs, 1 ≤ fro s i ∧ lro s i ≤ nt)
    (hwide : ∃ i ∈ chosen total perm, ∃ j ∈ chosen total perm, ∃ s ∈ srcs, ∃ s' ∈ srcs, fro s i < lro s' j)
    (hbig : dt * (nt : K) ≤ 10 ^ 16) :
    ∃ (res : Result K) (rows : List (ℕ × Row K)) (start finish : ℤ), readPy srcs weights perm = .ok res ∧ readMux2 srcs weights perm = .ok (nt, dt, rows) ∧
      IsLeast {a | ∃ i ∈ chosen total perm, ∃ s ∈ srcs, a = fro s i} start ∧
      IsGreatest {a | ∃ i ∈ chosen total perm, ∃ s ∈ srcs, a = lro s i} finish ∧
      (res.times.length : ℤ) = finish - start + 1 ∧
      (∀ k : ℕ, start + k ≤ finish → ∃ t, res.times[k]? = some t ∧ t + res.starttime = dt * ((start + k : ℤ) : K)) ∧
      res.quantity.length = rows.length ∧
      ∀ (n i : ℕ) (r : Row K), rows[n]? = some (i, r) → ∃ q : List K, res.quantity[n]? = some q ∧ q.length = res.times.length ∧
        ∀ k : ℕ, start + k ≤ finish →
          q[k]? = some (if start + k ≤ r.last then r.vals.getD (start + k - 1).toNat 0 else 0) := by
  obtain ⟨rows, hread, hfst, hrows⟩ := C110_read h weights hlen perm hp
  have hmem : ∀ i r, (i, r) ∈ rows → i ∈ chosen total perm := fun i r hr => by
    rw [← hfst]; exact List.mem_map_of_mem (f := Prod.fst) hr
  have hex : ∀ i ∈ chosen total perm, ∃ r, (i, r) ∈ rows := by
    intro i hi
    rw [← hfst] at hi
    obtain ⟨x, hx, rfl⟩ := List.mem_map.1 hi
    exact ⟨x.2, hx⟩
  obtain ⟨i0, hi0, j0, hj0, s0, hs0, s0', hs0', hlt0⟩ := hwide
  have hrne : rows ≠ [] := by
    obtain ⟨r, hr⟩ := hex i0 hi0
    exact List.ne_nil_of_mem hr
  -- extreme steps of the rows
  obtain ⟨start, hstart⟩ : ∃ a, IsLeast {x | ∃ r ∈ rows, x = r.2.first} a := by
    obtain ⟨r0, rs, rfl⟩ := List.exists_cons_of_ne_nil hrne
    clear hread hfst hrows hmem hex
    induction rs with
    | nil => exact ⟨r0.2.first, ⟨r0, by simp, rfl⟩, by rintro x ⟨r, hr, rfl⟩; simp at hr; rw [hr]⟩
    | cons r1 rs ih =>
      obtain ⟨a, ⟨r, hr, ha⟩, hl⟩ := ih (by simp)
      refine ⟨min a r1.2.first, ?_, ?_⟩
      · rcases min_choice a r1.2.first with e | e
        · rw [e]; exact ⟨r, by simp at hr ⊢; tauto, ha⟩
        · rw [e]; exact ⟨r1, by simp, rfl⟩
      · rintro x ⟨y, hy, rfl⟩
        rcases List.mem_cons.1 hy with rfl | hy
        · exact (min_le_left _ _).trans (hl ⟨_, by simp, rfl⟩)
        · rcases List.mem_cons.1 hy with rfl | hy
          · exact min_le_right _ _
          · exact (min_le_left _ _).trans (hl ⟨y, List.mem_cons_of_mem _ hy, rfl⟩)
  obtain ⟨finish, hfinish⟩ : ∃ a, IsGreatest {x | ∃ r ∈ rows, x = r.2.last} a := by
    obtain ⟨r0, rs, rfl⟩ := List.exists_cons_of_ne_nil hrne
    clear hread hfst hrows hmem hex hstart
    induction rs with
    | nil => exact ⟨r0.2.last, ⟨r0, by simp, rfl⟩, by rintro x ⟨r, hr, rfl⟩; simp at hr; rw [hr]⟩
    | cons r1 rs ih =>
      obtain ⟨a, ⟨r, hr, ha⟩, hl⟩ := ih (by simp)
      refine ⟨max a r1.2.last, ?_, ?_⟩
      · rcases max_choice a r1.2.last with e | e
        · rw [e]; exact ⟨r, by simp at hr ⊢; tauto, ha⟩
        · rw [e]; exact ⟨r1, by simp, rfl⟩
      · rintro x ⟨y, hy, rfl⟩
        rcases List.mem_cons.1 hy with rfl | hy
        · exact le_trans (hl ⟨_, by simp, rfl⟩) (le_max_left _ _)
        · rcases List.mem_cons.1 hy with rfl | hy
          · exact le_max_right _ _
          · exact le_trans (hl ⟨y, List.mem_cons_of_mem _ hy, rfl⟩) (le_max_left _ _)
  have hstart' : IsLeast {a | ∃ i ∈ chosen total perm, ∃ s ∈ srcs, a = fro s i} start := by
    constructor
    · obtain ⟨⟨i, r⟩, hr, e⟩ := hstart.1
      obtain ⟨s, hs, e'⟩ := (hrows i r hr).2.1.1
      exact ⟨i, hmem i r hr, s, hs, e.trans e'⟩
    · rintro x ⟨i, hi, s, hs, rfl⟩
      obtain ⟨r, hr⟩ := hex i hi
      exact (hstart.2 ⟨(i, r), hr, rfl⟩).trans ((hrows i r hr).2.1.2 ⟨s, hs, rfl⟩)
  have hfinish' : IsGreatest {a | ∃ i ∈ chosen total perm, ∃ s ∈ srcs, a = lro s i} finish := by
    constructor
    · obtain ⟨⟨i, r⟩, hr, e⟩ := hfinish.1
      obtain ⟨s, hs, e'⟩ := (hrows i r hr).2.2.1.1
      exact ⟨i, hmem i r hr, s, hs, e.trans e'⟩
    · rintro x ⟨i, hi, s, hs, rfl⟩
      obtain ⟨r, hr⟩ := hex i hi
      exact le_trans ((hrows i r hr).2.2.1.2 ⟨s, hs, rfl⟩) (hfinish.2 ⟨(i, r), hr, rfl⟩)
  have hs1 : 1 ≤ start := by
    obtain ⟨i, hi, s, hs, e⟩ := hstart'.1
    rw [e]; exact (hrec i hi s hs).1
  have hsf : start < finish :=
    lt_of_le_of_lt (hstart'.2 ⟨i0, hi0, s0, hs0, rfl⟩) (lt_of_lt_of_le hlt0 (hfinish'.2 ⟨j0, hj0, s0', hs0', rfl⟩))
  have hfn : finish ≤ nt := by
    obtain ⟨i, hi, s, hs, e⟩ := hfinish'.1
    rw [e]; exact (hrec i hi s hs).2
  have hb : dt * (start : K) ≤ 10 ^ 16 := by
    refine le_trans (mul_le_mul_of_nonneg_left ?_ hdt.le) hbig
    have : start ≤ (nt : ℤ) := by omega
    exact_mod_cast this
  have hpy := readPy_ok h.some.1 hlen hread hdt (by omega : 0 < nt) hstart hfinish hsf hfn (by omega) hb
  refine ⟨_, rows, start, finish, hpy, hread, hstart', hfinish', ?_, ?_, by simp, ?_⟩
  · simp only [List.length_map, List.length_range]
    omega
  · intro k hk
    refine ⟨dt * (k : K), ?_, ?_⟩
    · simp only
      rw [List.getElem?_map, List.getElem?_range (by omega)]
      rfl
    · push_cast
      ring
  · intro n i r hn
    refine ⟨window start finish r, ?_, ?_, ?_⟩
    · simp only
      rw [List.getElem?_map, hn]
      rfl
    · rw [(window_get start finish hs1 hsf.le r).1]
      simp
    · intro k hk
      rw [(window_get start finish hs1 hsf.le r).2 k hk]
      have e : (start - 1 + k).toNat = (start + k - 1).toNat := by omega
      rw [e]

/-- **C110** (disagreement). If one of the stations asked for never records in one of the sources, column `k` holds step `k + 1` and is given
the time of step `k - 1`: all series come two timesteps early. -/
theorem C110_early {srcs : List (Src K)} {nt : ℕ} {dt : K} {weights : List K} {perm : List ℕ} {rows : List (ℕ × Row K)}
    (hne : srcs ≠ []) (hlen : weights.length = srcs.length) (h : readMux2 srcs weights perm = .ok (nt, dt, rows)) (hdt : 0 < dt)
    (hnt : 0 < nt) {finish : ℤ} (hs : IsLeast {x | ∃ r ∈ rows, x = r.2.first} (-1))
    (hf : IsGreatest {x | ∃ r ∈ rows, x = r.2.last} finish) (hfn : finish ≤ nt) (hf0 : 0 ≤ finish) :
    ∃ res, readPy srcs weights perm = .ok res ∧ ∀ k : ℕ, (k : ℤ) + 1 ≤ finish →
      (∃ t, res.times[k]? = some t ∧ t + res.starttime = dt * (((k : ℤ) + 1 : ℤ) : K) - 2 * dt) ∧
      ∀ (n i : ℕ) (r : Row K), rows[n]? = some (i, r) → ∃ q : List K, res.quantity[n]? = some q ∧
        q[k]? = some (if (k : ℤ) + 1 ≤ r.last then r.vals.getD k 0 else 0) := by
  have hpy := readPy_ok hne hlen h hdt hnt hs hf (by omega) hfn hf0 (by
    push_cast
    have : dt * -1 ≤ 0 := by linarith
    exact this.trans (by positivity))
  refine ⟨_, hpy, fun k hk => ⟨⟨dt * (k : K), ?_, ?_⟩, ?_⟩⟩
  · simp only
    rw [List.getElem?_map, List.getElem?_range (by omega)]
    rfl
  · push_cast
    ring
  · intro n i r hn
    refine ⟨window (-1) finish r, ?_, (window_get_low (-1) finish (by omega) hf0 r).2 k hk⟩
    simp only
    rw [List.getElem?_map, hn]
    rfl

end Verif.Mux
