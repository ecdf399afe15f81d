/- When an assignment satisfies a Spartan R1CS instance. -/
import Verif.Model.SpartanR1cs

namespace Zkp.Spartan

variable {F : Type} [Field F]

/-- The value of a row under an assignment of the variables. -/
def rowVal (z : Index → F) (row : List (F × Index)) : F := (row.map fun t => t.1 * z t.2).sum

/-- Every constraint `a · b = c` holds and input 0 is the constant one. -/
def Inst.Sat (s : Inst F) (z : Index → F) : Prop :=
  z (.input 0) = 1 ∧ ∀ i < s.numConstraints,
    rowVal z (s.a.getD i []) * rowVal z (s.b.getD i []) = rowVal z (s.c.getD i [])

end Zkp.Spartan
