/- Vocabulary for the statement that Marlin's proofs hide the witness. -/
import Verif.Model.MarlinProver
import Verif.Spec.Hiding

namespace Zkp.Marlin

open Polynomial

variable {F : Type} [Field F] [DecidableEq F]
variable {G1 : Type}

/-- The coins that the prover can draw: the masking polynomial has degree below `3n`
(prover.rs:203, zk_bound is 1), the blinding polynomials have degree at most one. -/
def Drawn (n : Nat) (c : Coins F) : Prop :=
  c.mask.degree < (3 * n : Nat) ∧ ∀ l, (c.hide l).1.natDegree ≤ 1 ∧ (c.hide l).2.natDegree ≤ 1

/-- Two proofs that the verifier cannot tell apart: they agree except that a blinding value that is zero
may be left out. -/
structure Agree (π π' : Proof F G1) : Prop where
  commitments : π.commitments = π'.commitments
  evaluations : π.evaluations = π'.evaluations
  openings : List.Forall₂ (fun o o' => o.w = o'.w ∧ o.rand_v.getD 0 = o'.rand_v.getD 0)
    π.opening_proofs π'.opening_proofs

end Zkp.Marlin
