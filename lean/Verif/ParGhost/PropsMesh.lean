import Verif.ParGhost.Mesh
import Verif.ParGhost.PropsRace
import Verif.Par.Props

/-! # C109 for distributed meshes -/

namespace Verif.ParGhost

open Verif.Par (Local put distribute exchange)
open Verif.Mesh (Tri BDict MeshData buildMesh)

variable {α T τ : Type} {N width : ℕ} {epart : List ℕ} {tris : List Tri} {user : BDict} {m : MeshData} {parts : List Local}

theorem mem_keys (parts : List Local) (f : Local → ℕ → List (ℕ × ℕ)) (p q : ℕ) :
    q ∈ keys parts f p ↔ q < parts.length ∧ dict parts f p q ≠ [] := by
  unfold keys
  simp

theorem dict_some {f : Local → ℕ → List (ℕ × ℕ)} {p : ℕ} {a : Local} (h : parts[p]? = some a) (q : ℕ) :
    dict parts f p q = f a q := by
  unfold dict
  rw [h]

/-- **C109.** Dictionaries of a distributed mesh fit. -/
theorem C109_fits (hu : (user.map Prod.fst).Nodup) (hm : buildMesh tris user = .ok m) (hlen : epart.length = tris.length)
    (h : distribute N width epart tris m.boundary = .ok parts) (work : ℕ → (ℕ → α) × τ → (ℕ → α) × τ) (give : ℕ → (ℕ → α) × τ → T)
    (absorb : ℕ → (ℕ → α) × τ → List T → (ℕ → α) × τ) (coll : ℕ → Bool) : Fits (onMesh parts work give absorb coll) where
  fits p q hp := by
    show q ∈ keys parts Local.fullSend p ↔ q < parts.length ∧ p ∈ keys parts Local.ghostRecv q
    have hp : p < parts.length := hp
    rw [mem_keys, mem_keys]
    refine and_congr_right fun hq => ?_
    obtain ⟨b, hb⟩ : ∃ b, parts[p]? = some b := ⟨_, List.getElem?_eq_getElem hp⟩
    obtain ⟨a, ha⟩ : ∃ a, parts[q]? = some a := ⟨_, List.getElem?_eq_getElem hq⟩
    rw [dict_some hb, dict_some ha]
    have := (Par.C68_messages_match hu hm hlen h q p a b ha hb).1
    rw [← List.length_pos_iff, ← List.length_pos_iff, this]
    exact ⟨fun h => ⟨hp, h⟩, fun h => h.2⟩
  known p q _ hq := ((mem_keys _ _ _ _).1 hq).1

theorem fold_keys {β : Type} (l : List ℕ) (P : ℕ → Bool) (f : β → ℕ → β) (hf : ∀ q ∈ l, P q = false → ∀ u, f u q = u) (u : β) :
    (l.filter P).foldl f u = l.foldl f u := by
  induction l generalizing u with
  | nil => rfl
  | cons q l ih =>
    have ih := ih (fun q' hq' => hf q' (List.mem_cons_of_mem _ hq'))
    by_cases hq : P q = true
    · rw [List.filter_cons, if_pos hq, List.foldl_cons, List.foldl_cons, ih]
    · rw [List.filter_cons, if_neg hq, List.foldl_cons, hf q List.mem_cons_self (by simpa using hq), ih]

theorem fold_zip {β γ : Type} (l : List ℕ) (g : ℕ → γ) (f : β → ℕ → γ → β) (u : β) :
    (l.zip (l.map g)).foldl (fun u y => f u y.1 y.2) u = l.foldl (fun u q => f u q (g q)) u := by
  induction l generalizing u with
  | nil => rfl
  | cons q l ih => simp [ih]

/-- **C109.** Going together means: before every piece of work all ghosts are given the values of the exchange of C68 (`Par.exchange`). -/
theorem C109_exchange (work : ℕ → (ℕ → α) × τ → (ℕ → α) × τ) (give : ℕ → (ℕ → α) × τ → T)
    (absorb : ℕ → (ℕ → α) × τ → List T → (ℕ → α) × τ) (coll : ℕ → Bool) (mem : ℕ → (ℕ → α) × τ) (r p : ℕ) (hp : p < parts.length) :
    together (onMesh parts work give absorb coll) mem (r + 1) p =
      work p (exchange parts (fun q => (here (onMesh parts work give absorb coll) mem r q).1) p,
        (here (onMesh parts work give absorb coll) mem r p).2) := by
  rw [together_succ]
  generalize here (onMesh parts work give absorb coll) mem r = x
  show work p (((keys parts Local.ghostRecv p).zip ((keys parts Local.ghostRecv p).map fun q =>
      (dict parts Local.fullSend q p).map fun k => (x q).1 k.1)).foldl
      (fun u y => put u ((dict parts Local.ghostRecv p y.1).map Prod.fst) y.2) (x p).1, (x p).2) = _
  congr 2
  obtain ⟨a, ha⟩ : ∃ a, parts[p]? = some a := ⟨_, List.getElem?_eq_getElem hp⟩
  rw [fold_zip (f := fun u q v => put u ((dict parts Local.ghostRecv p q).map Prod.fst) v)]
  unfold keys
  rw [fold_keys]
  · unfold exchange
    simp only [ha]
    congr 1
    funext u q
    rw [dict_some ha]
    unfold dict
    cases parts[q]? <;> rfl
  · intro q _ hq u
    have : dict parts Local.ghostRecv p q = [] := by simpa using hq
    rw [this]
    rfl

/-- **C109.** So every piece of work of every processor sees, in each local triangle, the value that the owner of the triangle had when the
exchange began. -/
theorem C109_owner (hu : (user.map Prod.fst).Nodup) (hm : buildMesh tris user = .ok m) (hlen : epart.length = tris.length)
    (h : distribute N width epart tris m.boundary = .ok parts) (work : ℕ → (ℕ → α) × τ → (ℕ → α) × τ) (give : ℕ → (ℕ → α) × τ → T)
    (absorb : ℕ → (ℕ → α) × τ → List T → (ℕ → α) × τ) (o : Settings) (ho : o.Single) (n : ℕ) (mem : ℕ → (ℕ → α) × τ)
    (buf slot : ℕ → ℕ → List α) (mark : ℕ → ℕ → T) (t : ℕ) (s : St (List α) T ((ℕ → α) × τ))
    (he : Exec (onMesh parts work give absorb (between (evolve o n))) (exchanges (evolve o n)) t (start mem buf slot mark) s)
    (p r : ℕ) (a : Local) (ha : parts[p]? = some a) (hw : s.waiting p = false) (hr : s.round p = r + 1) :
    ∃ seen : ℕ → α,
      s.mem p = work p (seen, (here (onMesh parts work give absorb (between (evolve o n))) mem r p).2) ∧
      ∀ q b k l tri, parts[q]? = some b → a.triL2g[k]? = some tri → b.triL2g[l]? = some tri → l < b.nFull →
        seen k = (here (onMesh parts work give absorb (between (evolve o n))) mem r q).1 l := by
  have hp : p < parts.length := (List.getElem?_eq_some_iff.1 ha).1
  have hs : Safe (onMesh parts work give absorb (between (evolve o n))) (exchanges (evolve o n)) := by
    refine Or.inr fun r hr => ?_
    rcases Nat.eq_zero_or_pos n with rfl | hn
    · simp [evolve, exchanges] at hr
    · exact (C109_order o n hn).2 ho r hr
  have e := C109_together _ (C109_fits hu hm hlen h work give absorb _) _ hs mem buf slot mark t s he p hp hw
  rw [hr, C109_exchange _ _ _ _ _ _ _ hp] at e
  exact ⟨_, e, fun q b k l tri hb hk hl hf =>
    Par.C68_exchange hu hm hlen h (fun q => (here (onMesh parts work give absorb (between (evolve o n))) mem r q).1)
      p q a b ha hb k l tri hk hl hf⟩

end Verif.ParGhost
