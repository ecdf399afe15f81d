/- Vocabulary for extraction: a prover that can be asked again with other challenges. -/
import Verif.Model.Bulletproofs

namespace Zkp.Bp

variable {F : Type} [Field F] {G : Type}

/-- A prover of the inner-product argument, as a function of the challenges received so far: the two group
elements of the next round, and the two scalars at the end. -/
structure Replies (F G : Type) where
  send : List F → G × G
  last : List F → F × F

/-- The proof that the prover gives for the challenges `xs`. -/
def Replies.along (s : Replies F G) (xs : List F) : IppProof F G where
  L_vec := (List.range xs.length).map fun i => (s.send (xs.take i)).1
  R_vec := (List.range xs.length).map fun i => (s.send (xs.take i)).2
  a := (s.last xs).1
  b := (s.last xs).2

/-- `X past` are the four challenges that are tried after the challenges `past`; `xs` is one choice. -/
def OnTree (X : List F → Fin 4 → F) (xs : List F) : Prop :=
  ∀ i (h : i < xs.length), ∃ j, xs[i] = X (xs.take i) j

/-- Four challenges that are not zero and have different squares. -/
def Apart (x : Fin 4 → F) : Prop := (∀ j, x j ≠ 0) ∧ Function.Injective fun j => x j ^ 2

end Zkp.Bp
