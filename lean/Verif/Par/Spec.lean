import Verif.Mesh.Spec

/-!
# Vocabulary for distributed meshes (independent of the model)
-/

namespace Verif.Par

open Verif.Mesh (Across)

/-- Triangle `t` is reached from the triangles `S` by crossing at most `n` edges between triangles, none of them cut by a tag. -/
inductive Within (tris : List (ℕ × ℕ × ℕ)) (cut : ℕ → ℕ → Prop) (S : ℕ → Prop) : ℕ → ℕ → Prop
  | start {t : ℕ} : t < tris.length → S t → Within tris cut S 0 t
  | stay {n t : ℕ} : Within tris cut S n t → Within tris cut S (n + 1) t
  | step {n t e u j : ℕ} : Within tris cut S n t → Across tris t e u j → ¬ cut t e → Within tris cut S (n + 1) u

end Verif.Par
