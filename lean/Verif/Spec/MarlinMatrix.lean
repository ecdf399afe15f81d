/- What it means for an assignment to satisfy three sparse matrices. -/
import Mathlib.Algebra.Field.Defs
import Mathlib.Algebra.BigOperators.Group.List.Basic

namespace Zkp.Marlin

variable {F : Type} [Field F]

/-- The inner product of a sparse row with an assignment. -/
def rowVal (z : Nat → F) (row : List (F × Nat)) : F := (row.map fun t => t.1 * z t.2).sum

/-- `A z ∘ B z = C z`, row by row. -/
def MatSat (A B C : List (List (F × Nat))) (z : Nat → F) : Prop :=
  A.length = C.length ∧ B.length = C.length ∧
    ∀ i < C.length, rowVal z (A.getD i []) * rowVal z (B.getD i []) = rowVal z (C.getD i [])

end Zkp.Marlin
