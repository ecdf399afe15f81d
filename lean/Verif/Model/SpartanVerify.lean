/- Model of /repo/spartan/src/verify.rs, with the verifier half of inner_product.rs. -/
import Verif.Model.SpartanR1cs
import Verif.Model.Group

namespace Zkp.Spartan

open Zkp.Ml

variable {F : Type} [Field F] {G : Type} [AddCommGroup G] [Module F G]

/-- The ways a verifier run ends without acceptance: a panic (failed assertion, index out of range,
`unwrap` of `None`, arithmetic underflow), an `Err`, or `Ok(false)`.
spartan/src/verify.rs, the results of all functions; for instance 830 (assertion). -/
inductive Stop where
  | panic
  | err
  | reject
  deriving DecidableEq

/-- A verifier step: it reads and extends the transcript and may stop.
`transcript: &mut Transcript` of all functions of verify.rs, for instance 104-125. -/
abbrev Vf (F G : Type) := StateT (Transcript F G) (Except Stop)

/-- `append_message` or `append_u64`. -/
def say (m : Msg F G) : Vf F G Unit := fun tr => .ok ((), tr ++ [m])

/-- `challenge_bytes` followed by `random_bytes_to_fr` (data_structure.rs:339-346). -/
def challenge (ch : Oracle F G) (label : String) : Vf F G F :=
  fun tr => .ok (ch (tr ++ [.chal label]), tr ++ [.chal label])

/-- `n` challenges with one label. spartan/src/verify.rs:122-128. -/
def challenges (ch : Oracle F G) (label : String) : Nat → Vf F G (List F)
  | 0 => pure []
  | n + 1 => do
    let c ← challenge ch label
    let cs ← challenges ch label n
    pure (c :: cs)

/-- Stop with `s` unless `b`. For instance the assertion at verify.rs:829-833. -/
def ensure (s : Stop) (b : Bool) : Vf F G Unit := if b then pure () else throw s

/-- A value, or a panic. For instance inner_product.rs:126. -/
def orPanic {α : Type} : Option α → Vf F G α
  | some a => pure a
  | none => throw .panic

/-- data_structure.rs:18-23 `MultiCommitmentParameters`. -/
structure MultiParams (G : Type) where
  n : Nat
  generators : List G
  h : G

/-- data_structure.rs:11-16 `PolyCommitmentParameters`. -/
structure PcParams (G : Type) where
  n : Nat
  genN : MultiParams G
  gen1 : MultiParams G

/-- data_structure.rs:35-39 `SumCheckCommitmentParameters` and `R1CSSatisfiedParameters`. -/
structure SatParams (G : Type) where
  pc : PcParams G
  gen1 : MultiParams G
  gen3 : MultiParams G
  gen4 : MultiParams G
  n : Nat

/-- commitments.rs:42-58 `poly_commit_vec`; the same in hyrax/src/evaluate.rs:88-99, libra/src/evaluate.rs:130-142. -/
def commitVec (generators : List G) (values : List F) (h : G) (blind : F) : G :=
  msm generators values + blind • h

/-- data_structure.rs:168-174 `SumCheckEvalProof`. -/
structure ScEvalProof (F G : Type) where
  dCommit : G
  dotCdCommit : G
  z : List F
  zDelta : F
  zBeta : F

/-- data_structure.rs:216-220 `SumCheckProof`. -/
structure ScProof (F G : Type) where
  commPolys : List G
  commEvals : List G
  proofs : List (ScEvalProof F G)

/-- data_structure.rs:229-233 `KnowledgeProof`. -/
structure KnowProof (F G : Type) where
  t : G
  z1 : F
  z2 : F

/-- data_structure.rs:236-241 `ProductProof`. -/
structure ProdProof (F G : Type) where
  alpha : G
  beta : G
  delta : G
  z : List F

/-- data_structure.rs:244-247 `EqProof`. -/
structure EqProof (F G : Type) where
  alpha : G
  z : F

/-- data_structure.rs:250-253 `InnerProductProof` and `DotProductProof`. -/
structure DotProof (F G : Type) where
  L : List G
  R : List G
  delta : G
  beta : G
  z1 : F
  z2 : F

/-- data_structure.rs:190-201 `R1CSSatProof`, 277-289 `KnowledgeProductCommit`,
`KnowledgeProductProof`. -/
structure SatProof (F G : Type) where
  commitWitness : List G
  proofOne : ScProof F G
  proofTwo : ScProof F G
  wRy : F
  dot : DotProof F G
  va : G
  vb : G
  vc : G
  prod : G
  know : KnowProof F G
  product : ProdProof F G
  eq1 : EqProof F G
  eq2 : EqProof F G
  commitRy : G

/-- data_structure.rs:177-180 `NIZKProof`. -/
structure NizkProof (F G : Type) where
  sat : SatProof F G
  rx : List F
  ry : List F

/-- verify.rs:366-373: `w[0] + w[1]·r^i`, with another `w[0]` at position zero (`size ≥ 1`). -/
def evalCoeffs (w0 w1 r : F) (size : Nat) : List F :=
  ((List.range size).map fun i => w0 + w1 * r ^ i).modify 0 (· + w0)

variable [DecidableEq F] [DecidableEq G]

/-- verify.rs:339-406 `sum_check_eval_verify`; the same in libra/src/sumcheck.rs:524-581. -/
def scEvalVerify (ch : Oracle F G) (gen1 genN : MultiParams G) (commitPoly commitEval commitClaim : G)
    (proof : ScEvalProof F G) (r : F) (size : Nat) : Vf F G Bool := do
  let w0 ← challenge ch "combine_two_claims_to_one"
  let w1 ← challenge ch "combine_two_claims_to_one"
  say (.pt "Cx" commitPoly)
  let value := w0 • commitClaim + w1 • commitEval
  say (.pt "Cy" value)
  say (.pt "delta" proof.dCommit)
  say (.pt "beta" proof.dotCdCommit)
  let c ← challenge ch "c"
  let coeffs := evalCoeffs w0 w1 r size
  let rs1 := c • commitPoly + proof.dCommit = commitVec genN.generators proof.z genN.h proof.zDelta
  ensure .panic (size ≤ proof.z.length)
  let sum := (List.zipWith (· * ·) proof.z coeffs).sum
  let rs2 := c • value + proof.dotCdCommit = commitVec gen1.generators [sum] gen1.h proof.zBeta
  pure (decide rs1 && decide rs2)

/-- verify.rs:302-334: the rounds `i, i + 1, …` (`num_rounds` in total) of `sum_check_verify`. -/
def scRounds (ch : Oracle F G) (gen1 genN : MultiParams G) (proof : ScProof F G) (size : Nat) :
    Nat → Nat → G → Vf F G (List F × G)
  | 0, _, commitClaim => pure ([], commitClaim)
  | k + 1, i, commitClaim => do
    let commitPoly ← orPanic proof.commPolys[i]?
    let commitEval ← orPanic proof.commEvals[i]?
    let p ← orPanic proof.proofs[i]?
    say (.pt "comm_poly" commitPoly)
    let r ← challenge ch "challenge_nextround"
    say (.pt "comm_claim_per_round" commitClaim)
    say (.pt "comm_eval" commitEval)
    let ok ← scEvalVerify ch gen1 genN commitPoly commitEval commitClaim p r size
    ensure .err ok
    let (rs, final) ← scRounds ch gen1 genN proof size k (i + 1) commitEval
    pure (r :: rs, final)

/-- verify.rs:291-337 `sum_check_verify`. -/
def scVerify (ch : Oracle F G) (gen1 genN : MultiParams G) (proof : ScProof F G) (commitClaim : G)
    (size numRounds : Nat) : Vf F G (List F × G) :=
  scRounds ch gen1 genN proof size numRounds 0 commitClaim

/-- verify.rs:408-426 `knowledge_verify`; the same in hyrax/src/commitment.rs:96-110, libra/src/commitment.rs:95-109. -/
def knowledgeVerify (ch : Oracle F G) (params : MultiParams G) (proof : KnowProof F G) (commit : G) :
    Vf F G Bool := do
  say (.pt "C" commit)
  say (.pt "alpha" proof.t)
  let c ← challenge ch "c"
  pure (decide (commitVec params.generators [proof.z1] params.h proof.z2 = c • commit + proof.t))

/-- verify.rs:428-466 `product_verify`; the same in hyrax/src/commitment.rs:172-210,
libra/src/commitment.rs:171-209. -/
def productVerify (ch : Oracle F G) (params : MultiParams G) (proof : ProdProof F G) (va vb prod : G) :
    Vf F G Bool := do
  let z1 ← orPanic proof.z[0]?
  let z2 ← orPanic proof.z[1]?
  let z3 ← orPanic proof.z[2]?
  let z4 ← orPanic proof.z[3]?
  let z5 ← orPanic proof.z[4]?
  say (.pt "X" va)
  say (.pt "Y" vb)
  say (.pt "Z" prod)
  say (.pt "alpha" proof.alpha)
  say (.pt "beta" proof.beta)
  say (.pt "delta" proof.delta)
  let c ← challenge ch "c"
  pure (decide (proof.alpha + c • va = commitVec params.generators [z1] params.h z2) &&
    decide (proof.beta + c • vb = commitVec params.generators [z3] params.h z4) &&
    decide (proof.delta + c • prod = commitVec [va] [z3] params.h z5))

/-- verify.rs:468-489 `eq_verify`; the same in hyrax/src/commitment.rs:42-59, libra/src/commitment.rs:42-59. -/
def eqVerify (ch : Oracle F G) (params : MultiParams G) (c1 c2 : G) (proof : EqProof F G) : Vf F G Bool := do
  say (.pt "C1" c1)
  say (.pt "C2" c2)
  say (.pt "alpha" proof.alpha)
  let c ← challenge ch "c"
  pure (decide (proof.z • params.h = c • (c1 - c2) + proof.alpha))

/-- inner_product.rs:115-128: the challenges; a zero challenge panics. -/
def bulletChallenges (ch : Oracle F G) : List G → List G → Vf F G (List F)
  | L :: Ls, R :: Rs => do
    say (.pt "L" L)
    say (.pt "R" R)
    let x ← challenge ch "x"
    ensure .panic (x ≠ 0)
    let xs ← bulletChallenges ch Ls Rs
    pure (x :: xs)
  | _, _ => pure []

/-- inner_product.rs:130-141: the coefficients `s`, by appending. -/
def bulletS (xs : List F) : List F :=
  (List.range' 1 (2 ^ xs.length - 1)).foldl (fun s i =>
    s ++ [s.getD (i - 2 ^ Nat.log2 i) 0 * (xs.map fun x => x * x).getD ((xs.length - 1) - Nat.log2 i) 0])
    [xs.foldl (fun acc x => acc * x⁻¹) 1]

/-- inner_product.rs:104-154 `bullet_inner_product_verify`. -/
def bulletVerify (ch : Oracle F G) (g : List G) (L R : List G) (gamma : G) (b : List F) :
    Vf F G (F × G × G) := do
  ensure .panic (L.length = R.length)
  let xs ← bulletChallenges ch L R
  let s := bulletS xs
  ensure .panic (2 ^ L.length ≤ b.length)
  ensure .panic (2 ^ L.length ≤ g.length)
  pure ((List.zipWith (· * ·) (b.take s.length) s).sum, msm (g.take s.length) s,
    msm L (xs.map fun x => x * x) + msm R (xs.map fun x => x⁻¹ * x⁻¹) + gamma)

/-- verify.rs:491-536 `inner_product_verify`. -/
def innerProductVerify (ch : Oracle F G) (params : PcParams G) (ry : List F) (commits : List G) (commitRy : G)
    (proof : DotProof F G) : Vf F G Bool := do
  say (.frs "protocol-name: polynomial evaluation proof" [])
  let size := ry.length
  let lz := commitVec commits (evalEq (ry.take (size / 2))) params.gen1.h (0 : F)
  say (.pt "Cx" lz)
  say (.pt "Cy" commitRy)
  let (bS, gHat, gammaHat) ← bulletVerify ch params.genN.generators proof.L proof.R (lz + commitRy)
    (evalEq (ry.drop (size / 2)))
  say (.pt "delta" proof.delta)
  say (.pt "beta" proof.beta)
  let c ← challenge ch "challenge_tau"
  let g ← orPanic params.gen1.generators[0]?
  pure (decide (bS • (c • gammaHat + proof.beta) + proof.delta =
    proof.z1 • (gHat + bS • g) + proof.z2 • params.gen1.h))

/-- `next_power_of_two` of the larger number of variables (verify.rs:113). -/
def Inst.t (r1cs : Inst F) : Nat := padTo (max r1cs.numAux r1cs.numInputs)

/-- verify.rs:103-289 `r1cs_satisfied_verify`; the returned points are the sum-check challenges. -/
def satVerify (ch : Oracle F G) (params : SatParams G) (r1cs : Inst F) (inputs : List F)
    (proof : SatProof F G) (evals : F × F × F) : Vf F G (List F × List F) := do
  let t := r1cs.t
  let nx := Nat.clog 2 r1cs.numConstraints
  let ny := Nat.clog 2 t + 1
  ensure .panic (inputs.length + 1 ≤ t)
  let publicInputs := 1 :: inputs ++ List.replicate (t - inputs.length - 1) 0
  say (.frs "r1cs_input" publicInputs)
  say (.pts "poly_commitment" proof.commitWitness)
  let tau ← challenges ch "challenge_tau" nx
  let claim := commitVec params.gen1.generators [(0 : F)] params.gen1.h 0
  let (rx, evalX) ← scVerify ch params.gen1 params.gen4 proof.proofOne claim 4 nx
  ensure .reject (← knowledgeVerify ch params.gen1 proof.know proof.vc)
  ensure .reject (← productVerify ch params.gen1 proof.product proof.va proof.vb proof.prod)
  say (.pt "comm_Az_claim" proof.va)
  say (.pt "comm_Bz_claim" proof.vb)
  say (.pt "comm_Cz_claim" proof.vc)
  say (.pt "comm_prod_Az_Bz_claims" proof.prod)
  let eq ← orPanic (evalEqXY rx tau)
  ensure .reject (← eqVerify ch params.gen1 (eq • (proof.prod - proof.vc)) evalX proof.eq1)
  let ra ← challenge ch "challenege_Az"
  let rb ← challenge ch "challenege_Bz"
  let rc ← challenge ch "challenege_Cz"
  let claim2 := ra • proof.va + rb • proof.vb + rc • proof.vc
  let (ry, evalY) ← scVerify ch params.gen1 params.gen3 proof.proofTwo claim2 3 ny
  ensure .reject (← innerProductVerify ch params.pc ry.tail proof.commitWitness proof.commitRy proof.dot)
  let publicInputs := 1 :: inputs ++ List.replicate (2 ^ ry.tail.length - inputs.length - 1) 0
  let evalInput := sparseEvaluateValue publicInputs ry.tail
  let commitInput := commitVec params.pc.gen1.generators [evalInput] params.pc.gen1.h (0 : F)
  let y0 ← orPanic ry[0]?
  let evalZ := (1 - y0) • proof.commitRy + y0 • commitInput
  let claimTwo := (evals.1 * ra + evals.2.1 * rb + evals.2.2 * rc) • evalZ
  ensure .reject (← eqVerify ch params.pc.gen1 claimTwo evalY proof.eq2)
  pure (rx, ry)

/-- The start of the transcripts (verify.rs:33-35, 64-67). -/
def nizkStart (r1csHash paramsHash : F) : Transcript F G :=
  [.fr "Spartan NIZK proof: r1cs_hash" r1csHash, .fr "params_hash" paramsHash]

/-- verify.rs:25-52 `verify_nizk_proof`: `.ok ()` is `Ok(true)`. The matrices are evaluated at the point
that comes with the proof. -/
def verifyNizk (ch : Oracle F G) (params : SatParams G) (r1cs : Inst F) (inputs : List F)
    (proof : NizkProof F G) (r1csHash paramsHash : F) : Except Stop Unit :=
  match evaluateMle r1cs.a proof.rx proof.ry, evaluateMle r1cs.b proof.rx proof.ry,
      evaluateMle r1cs.c proof.rx proof.ry with
  | some a, some b, some c =>
    match satVerify ch params r1cs inputs proof.sat (a, b, c) (nizkStart r1csHash paramsHash) with
    | .ok _ => .ok ()
    | .error e => .error e
  | _, _, _ => .error .panic

end Zkp.Spartan
