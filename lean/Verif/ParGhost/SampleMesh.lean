import Verif.ParGhost.PropsMesh
import Verif.Par.Sample

/-! # The strip of six triangles on two processors -/

namespace Verif.ParGhost

open Verif.Par (Local distribute strip stripTags stripPart)
open Verif.Mesh (buildMesh)

/-- The hypotheses of `C109_owner` hold; the two processors send to each other and receive from each other. -/
example : ∃ m parts, (stripTags.map Prod.fst).Nodup ∧ buildMesh strip stripTags = .ok m ∧ stripPart.length = strip.length ∧
    distribute 2 1 stripPart strip m.boundary = .ok parts ∧
    [0, 1].map (keys parts Local.fullSend) = [[1], [0]] ∧ [0, 1].map (keys parts Local.ghostRecv) = [[1], [0]] ∧
    Settings.Single ⟨.rk2, 4, false, false⟩ ∧ exchanges (evolve ⟨.rk2, 4, false, false⟩ 5) = 6 :=
  ⟨_, _, by decide +kernel, rfl, rfl, rfl, by decide +kernel, by decide +kernel, by simp [Settings.Single], by decide +kernel⟩

end Verif.ParGhost
