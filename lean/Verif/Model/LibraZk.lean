/- Model of Libra's GKR protocol with hiding: /repo/libra/src/libra_zk_linear_gkr.rs and the hiding provers of
/repo/libra/src/sumcheck.rs. The parameters (libra/src/params.rs:11-103), the claims about the input layer and the
proofs about commitments are those of Hyrax, modelled in Model/Hyrax.lean and Model/HyraxProver.lean; the rounds
of the sum-check with hiding are those of Spartan (Model/SumCheck.lean, Model/SpartanVerify.lean). -/
import Verif.Model.HyraxProver

namespace Zkp.Lz

open Zkp.Ml Zkp.Spartan Zkp.Sc Zkp.Gkr Zkp.Cp Zkp.Hx

variable {F : Type} [Field F] {G : Type} [AddCommGroup G] [Module F G] [DecidableEq F]

/-- libra_zk_linear_gkr.rs:18-26 `ZKLayerProof`. -/
structure ZkLayer (F G : Type) where
  one : ScProof F G
  two : ScProof F G
  x : G
  y : G
  z : G
  prod : ProdProof F G
  eq : Spartan.EqProof F G

/-- libra_zk_linear_gkr.rs:29-38 `ZKLinearGKRProof`. -/
structure ZkGkrProof (F G : Type) where
  witness : List G
  proofs : List (ZkLayer F G)
  prod0 : DotProof F G
  y0 : G
  eq0 : Spartan.EqProof F G
  prod1 : DotProof F G
  y1 : G
  eq1 : Spartan.EqProof F G

/-! ### The prover -/

/-- sumcheck.rs:186-306 `ZKSumCheckProof::phase_one_prover`: the proof, the values of the folded tables, the
blinding factor of the final claim (`blind_evals[bit_size - 1]`, which panics without rounds) and the point.
`rands i` are the random values of round `i`. -/
def zkPhaseOne (ch : Oracle F G) (params : Params G) (f mul add1 add2 : List F) (bitSize : Nat) (claim blindClaim : F)
    (rands : Nat → RoundRand F) : Vf F G (ScProof F G × List F × F × List F) := do
  ensure .panic (f.length = mul.length ∧ f.length = add1.length ∧ f.length = add2.length ∧ f.length = 2 ^ bitSize)
  let (proof, ru, ts, _, blind) ← hidingRounds ch params.gen1 params.gen3 3 (quadRound libraOne)
    ((List.range bitSize).map rands) claim blindClaim [f, mul, add1, add2]
  let values ← orPanic (heads ts)
  ensure .panic (1 ≤ bitSize)
  pure (proof, values, blind, ru)

/-- sumcheck.rs:308-426 `ZKSumCheckProof::phase_two_prover`; the returned values do not contain `fu`. -/
def zkPhaseTwo (ch : Oracle F G) (params : Params G) (f mul add : List F) (fu : F) (bitSize : Nat) (claim blindClaim : F)
    (rands : Nat → RoundRand F) : Vf F G (ScProof F G × List F × F × List F) := do
  ensure .panic (f.length = mul.length ∧ f.length = add.length ∧ f.length = 2 ^ bitSize)
  let (proof, rv, ts, _, blind) ← hidingRounds ch params.gen1 params.gen3 3 (quadRound (libraTwo fu))
    ((List.range bitSize).map rands) claim blindClaim [f, mul, add]
  let values ← orPanic (heads ts)
  ensure .panic (1 ≤ bitSize)
  pure (proof, values, blind, rv)

/-- The random scalars of one layer: of the two sum-checks, `rx`, `ry`, `rz` (libra_zk_linear_gkr.rs:113, 142, 152), of
the product proof and of the equality proof. -/
structure LayerRand (F : Type) where
  one : Nat → RoundRand F
  two : Nat → RoundRand F
  x : F
  y : F
  z : F
  b : Nat → F
  eq : F

/-- libra_zk_linear_gkr.rs:89-175: one layer of the prover: the proof, the two points, `fu` and the values `eval_ru[0]`
and `eval_rv[0]`. -/
def zkLayerProve (ch : Oracle F G) (params : Params G) (gates : List Gate) (v : List F) (bitSize : Nat) (gu gv : List F)
    (alpha beta claim claimBlind : F) (rand : LayerRand F) :
    Vf F G (ZkLayer F G × List F × List F × F × F × F) := do
  let (mul, add1, add2) ← orPanic (initPhaseOne gu gv gates v bitSize alpha beta)
  let (one, evalRu, blindU, ru) ← zkPhaseOne ch params v mul add1 add2 bitSize claim claimBlind rand.one
  let e0 ← orPanic evalRu[0]?
  let e1 ← orPanic evalRu[1]?
  let e2 ← orPanic evalRu[2]?
  let e3 ← orPanic evalRu[3]?
  let x := commitVec params.gen1.generators [e0] params.gen1.h rand.x
  say (.pt "comm_x" x)
  let (mul, add, fu) ← orPanic (initPhaseTwo gu gv ru gates v bitSize alpha beta)
  let (two, evalRv, blindV, rv) ← zkPhaseTwo ch params v mul add fu bitSize (e0 * e1 + e0 * e2 + e3) blindU rand.two
  let f0 ← orPanic evalRv[0]?
  let f1 ← orPanic evalRv[1]?
  let f2 ← orPanic evalRv[2]?
  let y := commitVec params.gen1.generators [f0] params.gen1.h rand.y
  say (.pt "comm_y" y)
  let z := e0 * f0
  let (prod, _, _, commZ) ← productProve ch params.gen1 e0 rand.x f0 rand.y z rand.z
    (rand.b 0) (rand.b 1) (rand.b 2) (rand.b 3) (rand.b 4)
  let eval := z * f1 + (e0 + f0) * f2
  let eq ← eqProve ch params.gen1 eval (rand.z * f1 + (rand.x + rand.y) * f2) eval blindV rand.eq
  pure (⟨one, two, x, y, commZ, prod, eq⟩, ru, rv, fu, e0, f0)

/-- What the loop over the layers leaves behind: the points and the values with their blinding factors.
libra/src/libra_zk_linear_gkr.rs:178-195. -/
structure Final (F : Type) where
  gu : List F
  gv : List F
  x : F
  y : F
  blindX : F
  blindY : F

/-- libra_zk_linear_gkr.rs:88-207: the layers from the output to the input, as in `Gkr.proveLayers`; layer `i` (from
the output) has the random scalars `rands i`. -/
def zkLayersProve (ch : Oracle F G) (params : Params G) (rands : Nat → LayerRand F) :
    List (List Gate × List F × Nat) → Nat → List F → List F → F → F → F → F → F →
    Vf F G (List (ZkLayer F G) × Final F)
  | [], _, gu, gv, _, _, _, _, _ => pure ([], ⟨gu, gv, 0, 0, 0, 0⟩)
  | (gates, v, bitSize) :: rest, i, gu, gv, resultU, resultV, alpha, beta, claimBlind => do
    let (p, ru, rv, fu, e0, f0) ← zkLayerProve ch params gates v bitSize gu gv alpha beta
      (alpha * resultU + beta * resultV) claimBlind (rands i)
    match rest with
    | [] => pure ([p], ⟨ru, rv, e0, f0, (rands i).x, (rands i).y⟩)
    | _ :: _ => do
      let alpha ← challenge ch "challenge_alpha"
      let beta ← challenge ch "challenge_beta"
      let (ps, fin) ← zkLayersProve ch params rands rest (i + 1) ru rv fu f0 alpha beta
        (alpha * (rands i).x + beta * (rands i).y)
      pure (p :: ps, fin)

/-- The random scalars of the whole proof. libra/src/libra_zk_linear_gkr.rs:41-270, every use of `rng`. -/
structure GkrRand (F : Type) where
  witness : List F
  layers : Nat → LayerRand F
  in0 : InputRand F
  in1 : InputRand F

/-- libra_zk_linear_gkr.rs:50-59, 280-285: the start of the transcripts. -/
def zkStart (circuitHash paramsHash : F) (inputs outputs : List F) : Transcript F G :=
  [.fr "libra - zk linear gkr: circuit_to_hash" circuitHash, .fr "params_to_hash" paramsHash, .frs "input" inputs,
    .frs "output" outputs]

/-- libra_zk_linear_gkr.rs:61-269: the prover after the start of the transcript. The two claims about the input layer
(209-256) are proved as in Hyrax, without instance variables. -/
def zkProveRun (ch : Oracle F G) (params : Params G) (c : Circuit) (evals : List (List F)) (witnesses : List F)
    (rand : GkrRand F) : Vf F G (ZkGkrProof F G) := do
  let comm ← packCommit params.pc.genN.generators params.pc.genN.h witnesses rand.witness
  say (.pts "comm_witness" comm)
  ensure .panic (1 ≤ c.depth)
  let last ← orPanic c.layers[c.depth - 1]?
  let (resultU, gu) ← evalOutput ch (evals.getLastD []) last.bitSize
  let (proofs, fin) ← zkLayersProve ch params rand.layers (layerInputs c.layers evals) 0 gu
    (List.replicate gu.length 0) resultU 0 1 0 0
  let (prod0, y0, eq0) ← inputProve ch params witnesses rand.witness [] fin.gu fin.x fin.blindX rand.in0
  let (prod1, y1, eq1) ← inputProve ch params witnesses rand.witness [] fin.gv fin.y fin.blindY rand.in1
  pure ⟨comm, proofs, prod0, y0, eq0, prod1, y1, eq1⟩

/-- libra_zk_linear_gkr.rs:41-269 `ZKLinearGKRProof::prover`: the proof and the outputs. A failed evaluation is
unwrapped. -/
def zkProver (ch : Oracle F G) (params : Params G) (c : Circuit) (inputs witnesses : List F)
    (circuitHash paramsHash : F) (rand : GkrRand F) : Except Stop (ZkGkrProof F G × List F) :=
  match c.evaluate inputs witnesses with
  | .error _ => .error .panic
  | .ok evals =>
    match zkProveRun ch params c evals witnesses rand (zkStart circuitHash paramsHash inputs (evals.getLastD [])) with
    | .ok (proof, _) => .ok (proof, evals.getLastD [])
    | .error e => .error e

/-! ### The verifier -/

variable [DecidableEq G]

/-- `assert!(result)`: any failure is a panic. libra/src/libra_zk_linear_gkr.rs:336, 360. -/
def asserted {α : Type} (m : Vf F G α) : Vf F G α := fun tr =>
  match m tr with
  | .ok r => .ok r
  | .error _ => .error .panic

/-- libra_zk_linear_gkr.rs:313-386: one layer of the verifier; the claim of the layer above is in `commClaim`. The
rounds (320-342, 346-369) are those of Spartan's `sum_check_verify` up to the kind of failure. The result are the two
points. -/
def zkLayerVerify (ch : Oracle F G) (params : Params G) (p : ZkLayer F G) (gates : List Gate) (bitSize : Nat)
    (gu gv : List F) (alpha beta : F) (commClaim : G) : Vf F G (List F × List F) := do
  let (ru, commClaim) ← asserted (scRounds ch params.gen1 params.gen3 p.one 3 bitSize 0 commClaim)
  say (.pt "comm_x" p.x)
  let (rv, commClaim) ← asserted (scRounds ch params.gen1 params.gen3 p.two 3 bitSize 0 commClaim)
  say (.pt "comm_y" p.y)
  ensure .panic (← productVerify ch params.gen1 p.prod p.x p.y p.z)
  let (add, mult) ← orPanic (evalOperators gates gu gv ru rv alpha beta)
  ensure .panic (← eqVerify ch params.gen1 (add • (p.x + p.y) + mult • p.z) commClaim p.eq)
  pure (ru, rv)

/-- libra_zk_linear_gkr.rs:312-403: the loop over the layers; the list holds the gates of each layer and the size of the
layer below. The results are the last points and commitments. -/
def zkLayersVerify (ch : Oracle F G) (params : Params G) :
    List (ZkLayer F G) → List (List Gate × Nat) → List F → List F → F → F → G → Vf F G (List F × List F × G × G)
  | p :: ps, (gates, bitSize) :: items, gu, gv, alpha, beta, commClaim => do
    let (ru, rv) ← zkLayerVerify ch params p gates bitSize gu gv alpha beta commClaim
    match ps with
    | [] => pure (ru, rv, p.x, p.y)
    | _ :: _ => do
      let alpha ← challenge ch "challenge_alpha"
      let beta ← challenge ch "challenge_beta"
      zkLayersVerify ch params ps items ru rv alpha beta (alpha • p.x + beta • p.y)
  | _, _, _, _, _, _, commClaim => pure ([], [], commClaim, commClaim)

/-- The gates of the layers from the output down, with the sizes of the layers below (libra_zk_linear_gkr.rs:314, 375). -/
def layerParts (c : Circuit) : List (List Gate × Nat) :=
  (List.range (c.depth - 1)).map fun d =>
    (((c.layers.map fun l => l.gates).getD (c.depth - d - 1) []),
      ((c.layers.map fun l => l.bitSize).getD (c.depth - d - 2) 0))

/-- libra_zk_linear_gkr.rs:286-467: the body of `verify` after the start of the transcript. -/
def zkVerifyRun (ch : Oracle F G) (params : Params G) (c : Circuit) (outputs inputs : List F) (proof : ZkGkrProof F G) :
    Vf F G Unit := do
  say (.pts "comm_witness" proof.witness)
  ensure .panic (1 ≤ c.depth)
  let last ← orPanic c.layers[c.depth - 1]?
  let (resultU, gu) ← evalOutput ch outputs last.bitSize
  let commClaim := commitVec params.pc.gen1.generators [1 * resultU + 0 * 0] params.pc.gen1.h (0 : F)
  ensure .panic (c.depth - 1 = proof.proofs.length)
  let (ru, rv, commX, commY) ← zkLayersVerify ch params proof.proofs (layerParts c) gu gu 1 0 commClaim
  let l0 ← orPanic c.layers[0]?
  ensure .panic (1 ≤ l0.bitSize)
  ensure .panic (inputs.length ≤ 2 ^ (l0.bitSize - 1))
  let inputs := inputs ++ List.replicate (2 ^ (l0.bitSize - 1) - inputs.length) 0
  inputVerify ch params proof.witness proof.prod0 proof.y0 proof.eq0 inputs [] ru commX
  inputVerify ch params proof.witness proof.prod1 proof.y1 proof.eq1 inputs [] rv commY

/-- libra_zk_linear_gkr.rs:271-468 `ZKLinearGKRProof::verify`: it returns `true` or panics. -/
def zkVerify (ch : Oracle F G) (params : Params G) (c : Circuit) (outputs inputs : List F) (circuitHash paramsHash : F)
    (proof : ZkGkrProof F G) : Except Stop Bool :=
  match zkVerifyRun ch params c outputs inputs proof (zkStart circuitHash paramsHash inputs outputs) with
  | .ok _ => .ok true
  | .error e => .error e

end Zkp.Lz
