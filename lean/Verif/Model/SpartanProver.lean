/- Model of /repo/spartan/src/prover.rs: the prover of the satisfiability part and of the NIZK. Random scalars are
arguments. -/
import Verif.Model.CommitProofs
import Verif.Model.SumCheck

namespace Zkp.Spartan

open Zkp.Ml Zkp.Sc Zkp.Cp

variable {F : Type} [Field F] {G : Type} [AddCommGroup G] [Module F G] [DecidableEq F] [DecidableEq G]

/-- The random scalars of `r1cs_satisfied_prover` (prover.rs:200-420): the blinding factors of the witness rows,
those of the two sum-checks, `blind_a`, `blind_b`, `blind_c`, `blind_prod_ab`, `blind_eval`, and those of the proofs
about commitments. -/
structure SatRand (F : Type) where
  witness : List F
  one : List (RoundRand F)
  two : List (RoundRand F)
  a : F
  b : F
  c : F
  prod : F
  t1 : F
  t2 : F
  b1 : F
  b2 : F
  b3 : F
  b4 : F
  b5 : F
  eq1 : F
  eval : F
  d : F
  rDelta : F
  rBeta : F
  bullet : List (F × F)
  eq2 : F

/-- prover.rs:227-233: zeros up to length `t`; `t - len` underflows if there are more values. -/
def padValues (t : Nat) (values : List F) : Vf F G (List F) := do
  ensure .panic (values.length ≤ t)
  pure (values ++ List.replicate (t - values.length) 0)

/-- prover.rs:350-358: the columns of the three matrices, combined. -/
def combineColumns (r1cs : Inst F) (rx : List F) (len : Nat) (ra rb rc : F) : Option (List F) := do
  let ex := evalEq rx
  let a ← evaluateMatrixVecCol r1cs.a ex len
  let b ← evaluateMatrixVecCol r1cs.b ex len
  let c ← evaluateMatrixVecCol r1cs.c ex len
  guard (a.length = b.length ∧ a.length = c.length)
  some ((List.range a.length).map fun i => ra * a.getD i 0 + rb * b.getD i 0 + rc * c.getD i 0)

/-- prover.rs:200-420 `r1cs_satisfied_prover`; `cs` is what the synthesis of the circuit leaves in the
`ProvingAssignment`, the constant one included (prover.rs:38-99, 212-220). -/
def satProve (ch : Oracle F G) (params : SatParams G) (r1cs : Inst F) (cs : CS F) (rand : SatRand F) :
    Vf F G (SatProof F G × List F × List F) := do
  ensure .panic (r1cs.numConstraints = padTo cs.constraints.length)
  let t := r1cs.t
  let aux ← padValues t cs.aux
  let input ← padValues t cs.inputs
  let z := aux ++ input
  say (.frs "r1cs_input" input)
  let commitWitness ← packCommit params.pc.genN.generators params.pc.genN.h aux rand.witness
  say (.pts "poly_commitment" commitWitness)
  let tau ← challenges ch "challenge_tau" (Nat.clog 2 r1cs.numConstraints)
  let ma ← orPanic (evaluateMatrixVec r1cs.a z)
  let mb ← orPanic (evaluateMatrixVec r1cs.b z)
  let mc ← orPanic (evaluateMatrixVec r1cs.c z)
  let (proofOne, rx, (va, vb, vc, eqTau), blind1) ← phaseOne ch params 0 ma mb mc (evalEq tau) rand.one
  let (know, vcCommit) ← knowledgeProve ch params.gen1 vc rand.c rand.t1 rand.t2
  let (product, vaCommit, vbCommit, prodCommit) ← productProve ch params.gen1 va rand.a vb rand.b (va * vb) rand.prod
    rand.b1 rand.b2 rand.b3 rand.b4 rand.b5
  say (.pt "comm_Az_claim" vaCommit)
  say (.pt "comm_Bz_claim" vbCommit)
  say (.pt "comm_Cz_claim" vcCommit)
  say (.pt "comm_prod_Az_Bz_claims" prodCommit)
  let claim1 := eqTau * (va * vb - vc)
  let eq1 ← eqProve ch params.gen1 claim1 (eqTau * (rand.prod - rand.c)) claim1 blind1 rand.eq1
  let ra ← challenge ch "challenege_Az"
  let rb ← challenge ch "challenege_Bz"
  let rc ← challenge ch "challenege_Cz"
  let claim2 := va * ra + vb * rb + vc * rc
  let blindClaim2 := rand.a * ra + rand.b * rb + rand.c * rc
  let evals ← orPanic (combineColumns r1cs rx z.length ra rb rc)
  let (proofTwo, ry, (vs, vz), blind2) ← phaseTwo ch params claim2 blindClaim2 evals z rand.two
  let y0 ← orPanic ry[0]?
  let wRy ← orPanic (evalValue aux ry.tail)
  let (dot, commitRy) ← innerProductProve ch params.pc aux rand.witness ry.tail rand.eval wRy rand.d rand.rDelta
    rand.rBeta rand.bullet
  let eq2 ← eqProve ch params.pc.gen1 (vs * vz) ((1 - y0) * rand.eval * vs) (vs * vz) blind2 rand.eq2
  pure (⟨commitWitness, proofOne, proofTwo, wRy, dot, vaCommit, vbCommit, vcCommit, prodCommit, know, product, eq1, eq2,
    commitRy⟩, rx, ry)

/-- prover.rs:104-135 `create_nizk_proof`. -/
def createNizk (ch : Oracle F G) (params : SatParams G) (r1cs : Inst F) (cs : CS F) (rand : SatRand F)
    (r1csHash paramsHash : F) : Except Stop (NizkProof F G) :=
  match satProve ch params r1cs cs rand (nizkStart r1csHash paramsHash) with
  | .ok ((sat, rx, ry), _) => .ok ⟨sat, rx, ry⟩
  | .error e => .error e

end Zkp.Spartan
