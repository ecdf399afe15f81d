/- Group operations shared by the proof systems. -/
import Mathlib.Algebra.Module.Basic
import Mathlib.Algebra.BigOperators.Group.List.Basic

namespace Zkp

variable {F : Type} [Field F] {G : Type} [AddCommGroup G] [Module F G]

/-- `VariableBaseMSM::multi_scalar_mul` (curve/src/lib.rs:38-45) and the curve25519 version
(curve25519/src/group.rs:29-47): both truncate to the shorter argument. -/
def msm (bases : List G) (scalars : List F) : G :=
  (List.zipWith (fun b s => s • b) bases scalars).sum

end Zkp
