/-
Specification vocabulary for linear combinations and constraint systems: what a linear combination
*means* under an assignment, and when a rank-1 constraint holds.  Independent of the operators.
-/
import Verif.Model.R1cs
import Mathlib.Algebra.BigOperators.Group.List.Basic

namespace Zkp

variable {F : Type} [Field F]

/-- The value of a linear combination under an assignment of field elements to variables. -/
def LC.eval (w : Index → F) (l : LC F) : F := (l.map fun t => t.2 * w t.1).sum

/-- The value of a `ConstraintVar`. -/
def ConstraintVar.eval (w : Index → F) : ConstraintVar F → F
  | .lc l => l.eval w
  | .var v => w v

/-- The documented variable order: public inputs first, then auxiliary variables, each by
position. -/
def Index.Le : Index → Index → Prop
  | .input i, .input j => i ≤ j
  | .aux i, .aux j => i ≤ j
  | .input _, .aux _ => True
  | .aux _, .input _ => False

/-- A combination whose terms are listed in the documented order. -/
def LC.Ordered (l : LC F) : Prop := l.Pairwise fun a b => a.1.Le b.1

/-- A combination that mentions every variable at most once. -/
def LC.NoRepeat (l : LC F) : Prop := (l.map Prod.fst).Nodup

/-- Everything a user can build with the public constructors and operators of
`LinearCombination` (without writing to the tuple field directly). -/
inductive LC.Built : LC F → Prop
  | zero : LC.Built LC.zero
  | ofTerm (c : F) (v : Index) : LC.Built (LC.ofTerm c v)
  | ofVar (v : Index) : LC.Built (LC.ofVar v)
  | replace {a b : LC F} : LC.Built a → LC.Built b → LC.Built (a.replace b)
  | neg {a : LC F} : LC.Built a → LC.Built a.neg
  | double {a : LC F} : LC.Built a → LC.Built a.double
  | scale {a : LC F} (s : F) : LC.Built a → LC.Built (a.scale s)
  | addTerm {a : LC F} (c : F) (v : Index) : LC.Built a → LC.Built (a.addTerm c v)
  | subTerm {a : LC F} (c : F) (v : Index) : LC.Built a → LC.Built (a.subTerm c v)
  | addVar {a : LC F} (v : Index) : LC.Built a → LC.Built (a.addVar v)
  | subVar {a : LC F} (v : Index) : LC.Built a → LC.Built (a.subVar v)
  | add {a b : LC F} : LC.Built a → LC.Built b → LC.Built (a.add b)
  | addRefVal {a b : LC F} : LC.Built a → LC.Built b → LC.Built (a.addRefVal b)
  | sub {a b : LC F} : LC.Built a → LC.Built b → LC.Built (a.sub b)
  | subRefVal {a b : LC F} : LC.Built a → LC.Built b → LC.Built (a.subRefVal b)
  | addScaled {a b : LC F} (k : F) : LC.Built a → LC.Built b → LC.Built (a.addScaled k b)
  | subScaled {a b : LC F} (k : F) : LC.Built a → LC.Built b → LC.Built (a.subScaled k b)

end Zkp
