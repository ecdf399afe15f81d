/- Model of Hyrax's verifier: /repo/hyrax/src/evaluate.rs, zk_sumcheck_proof.rs, hyrax_proof.rs. Every
`assert!` that fails is a panic. `Nat.clog 2` is `ark_std::log2` and `padTo` is `next_power_of_two`. -/
import Verif.Model.CommitProofs
import Verif.Model.Layered

namespace Zkp.Hx

open Zkp.Ml Zkp.Spartan Zkp.Gkr Zkp.Cp

variable {F : Type} [Field F] {G : Type} [AddCommGroup G] [Module F G] [DecidableEq F] [DecidableEq G]

/-- A rectangular `Vec<Vec<Fr>>` of a fixed size, by its entries. hyrax/src/evaluate.rs:166-168. -/
structure Mat (F : Type) where
  rows : Nat
  cols : Nat
  val : Nat → Nat → F

/-- `m[i][j] = v`; out of range panics. hyrax/src/evaluate.rs:170-171. -/
def Mat.set (m : Mat F) (i j : Nat) (v : F) : Option (Mat F) :=
  if i < m.rows ∧ j < m.cols then
    some ⟨m.rows, m.cols, fun i' j' => if i' = i ∧ j' = j then v else m.val i' j'⟩
  else none

/-- Several consecutive cells of one row. hyrax/src/evaluate.rs:170-250. -/
def Mat.setRow (m : Mat F) (i j : Nat) (vs : List F) : Option (Mat F) :=
  vs.zipIdx.foldlM (fun m (v, k) => m.set i (j + k) v) m

/-- evaluate.rs:205-223: the wiring predicates for addition and multiplication gates. -/
def gateEvals (eval0 : F) (ql qr r0 r1 : List F) (u0 u1 : F) (gates : List Gate) : Option (F × F) :=
  gates.foldlM (fun acc g => do
    let eval := eval0 * ((← (evalEq ql)[g.g]?) * u0 + (← (evalEq qr)[g.g]?) * u1)
    if g.op = 0 then
      some (acc.1 + (← (evalEq r0)[g.left]?) * (← (evalEq r1)[g.right]?) * eval, acc.2)
    else if g.op = 1 then
      some (acc.1, acc.2 + (← (evalEq r0)[g.left]?) * (← (evalEq r1)[g.right]?) * eval)
    else some acc) (0, 0)

/-- evaluate.rs:151-235 `construct_matrix`. For `log_n = 0` the bound `log_n - 1` underflows: with overflow
checks that panics at once; without them the loop starts and panics at `rs[0]` (or at `mm[0][3]` before). -/
def constructMatrix (rs r0 r1 qa ql qr : List F) (gates : List Gate) (u0 u1 : F) (logN logG : Nat) :
    Option (Mat F) := do
  if logN = 0 then none
  else
    let m : Mat F := ⟨logN + 2 * logG + 1, 4 * logN + 6 * logG + 3, fun _ _ => 0⟩
    let m ← m.setRow 0 0 [2, 1, 1, 1]
    let m ← (List.range (logN - 1)).foldlM (fun m i => do
      let r ← rs[i]?
      m.setRow (i + 1) (i * 4) [-1, -1 * r, -1 * r * r, -1 * r * r * r, 2, 1, 1, 1]) m
    let r ← rs[logN - 1]?
    let m ← m.setRow logN ((logN - 1) * 4) [-1, -1 * r, -1 * r * r, -1 * r * r * r, 2, 1, 1]
    let m ← (List.range (2 * logG)).foldlM (fun m i => do
      let r ← (r0 ++ r1)[i]?
      m.setRow (logN + 1 + i) (logN * 4 + i * 3) [-1, -1 * r, -1 * r * r, 2, 1, 1]) m
    let eval0 ← evalEqXY qa rs
    let (add, mult) ← gateEvals eval0 ql qr r0 r1 u0 u1 gates
    m.setRow (logN + logG * 2) (logN * 4 + logG * 6) [add, add, mult]

/-- params.rs:43-48 `SumCheckCommitmentSetupParameters` and 10-14 `Parameters`. -/
structure Params (G : Type) where
  gen1 : MultiParams G
  gen3 : MultiParams G
  gen4 : MultiParams G
  pc : PcParams G

/-- zk_sumcheck_proof.rs:18-32 `ZkSumcheckProof`. -/
structure ZkProof (F G : Type) where
  prod : ProdProof F G
  a0 : G
  c : G
  x : G
  y : G
  z : G
  polys : List G
  evals : List G
  deltas : List G
  zVec : List F
  zDelta : List F
  zc : F

/-- zk_sumcheck_proof.rs:640-659: the rounds `j, j + 1, …`; the challenges are returned. -/
def zkRounds (ch : Oracle F G) (proof : ZkProof F G) : Nat → Nat → G → Vf F G (List F)
  | 0, _, _ => pure []
  | k + 1, j, commClaim => do
    let commPoly ← orPanic proof.polys[j]?
    let commEval ← orPanic proof.evals[j]?
    say (.pt "comm_poly" commPoly)
    let r ← challenge ch "challenge_nextround"
    say (.pt "comm_claim_per_round" commClaim)
    say (.pt "comm_eval" commEval)
    let rest ← zkRounds ch proof k (j + 1) commEval
    pure (r :: rest)

/-- zk_sumcheck_proof.rs:686-688: every `comm_delta` is hashed, however many there are. -/
def sayDeltas : List G → Vf F G Unit
  | [] => pure ()
  | d :: ds => do
    say (.pt "comm_delta" d)
    sayDeltas ds

/-- zk_sumcheck_proof.rs:703-732: the check of round `j`. -/
def zkRoundCheck (params : Params G) (proof : ZkProof F G) (c : F) (logN j : Nat) : Option Bool := do
  let right := c • (← proof.polys[j]?) + (← proof.deltas[j]?)
  if j < logN then
    let zs := [← proof.zVec[j * 4]?, ← proof.zVec[j * 4 + 1]?, ← proof.zVec[j * 4 + 2]?, ← proof.zVec[j * 4 + 3]?]
    some (decide (commitVec params.gen4.generators zs params.gen4.h (← proof.zDelta[j]?) = right))
  else
    let zs := [← proof.zVec[logN + j * 3]?, ← proof.zVec[logN + j * 3 + 1]?, ← proof.zVec[logN + j * 3 + 2]?]
    some (decide (commitVec params.gen3.generators zs params.gen3.h (← proof.zDelta[j]?) = right))

/-- zk_sumcheck_proof.rs:735-741: the random combination of the rows of the matrix. -/
def jVec (rou : List F) (m : Mat F) (rows k : Nat) : F :=
  ((List.range rows).map fun j => rou.getD j 0 * m.val j k).sum

/-- zk_sumcheck_proof.rs:669-759 `sumcheck_verify`. The result `false` of the caller's `assert!` is a panic. -/
def sumcheckVerify (ch : Oracle F G) (params : Params G) (proof : ZkProof F G) (m : Mat F) (logG logN : Nat) :
    Vf F G Unit := do
  ensure .panic (← productVerify ch params.gen1 proof.prod proof.x proof.y proof.z)
  sayDeltas proof.deltas
  let rou ← challenges ch "challenge_nextround" (logN + 2 * logG + 1)
  say (.pt "comm_c" proof.c)
  let c ← challenge ch "challenge_nextround"
  let oks ← orPanic ((List.range (logN + 2 * logG)).mapM (zkRoundCheck params proof c logN))
  ensure .panic (oks.all id)
  let j := jVec rou m (logN + 2 * logG + 1)
  let w := 4 * logN + 6 * logG
  let left := c • (rou.getD 0 0 • proof.a0 + (-j w) • proof.x + (-j (w + 1)) • proof.y + (-j (w + 2)) • proof.z) +
    proof.c
  ensure .panic (w ≤ proof.zVec.length)
  let sum := ((List.range w).map fun k => j k * proof.zVec.getD k 0).sum
  ensure .panic (left = commitVec params.gen1.generators [sum] params.gen1.h proof.zc)

/-- zk_sumcheck_proof.rs:622-667 `verify`: the points that the layer hands to the next one. -/
def zkVerify (ch : Oracle F G) (params : Params G) (proof : ZkProof F G) (commClaim : G) (u0 u1 : F)
    (qa ql qr : List F) (gates : List Gate) (n ng : Nat) : Vf F G (G × G × List F × List F × List F) := do
  let logG := Nat.clog 2 ng
  let logN := Nat.clog 2 n
  let r ← zkRounds ch proof (logN + 2 * logG) 0 commClaim
  let rs := r.take logN
  let r0 := (r.drop logN).take logG
  let r1 := r.drop (logN + logG)
  let m ← orPanic (constructMatrix rs r0 r1 qa ql qr gates u0 u1 logN logG)
  sumcheckVerify ch params proof m logG logN
  pure (proof.x, proof.y, rs, r0, r1)

/-- evaluate.rs:11-47 `eval_outputs`. An output longer than the padded first one underflows (a panic in
every build: without overflow checks the allocation fails). -/
def evalOutputs (ch : Oracle F G) (outputs : List (List F)) : Vf F G (F × List F × List F) := do
  let o0 ← orPanic outputs[0]?
  let n := padTo outputs.length
  let g := padTo o0.length
  let q ← challenges ch "challenge_nextround" (Nat.clog 2 g)
  ensure .panic (outputs.all fun o => o.length ≤ g)
  let eqs := outputs.map fun o => (List.zipWith (· * ·) o (evalEq q)).sum
  let qa ← challenges ch "challenge_nextround" (Nat.clog 2 n)
  pure ((List.zipWith (· * ·) eqs (evalEq qa)).sum, qa, q)

/-- hyrax_proof.rs:16-26 `HyraxProof`. -/
structure HyraxProof (F G : Type) where
  witness : List G
  proofs : List (ZkProof F G)
  prod0 : DotProof F G
  y0 : G
  eq0 : Spartan.EqProof F G
  prod1 : DotProof F G
  y1 : G
  eq1 : Spartan.EqProof F G

/-- hyrax_proof.rs:249-283: what the loop over the layers carries. -/
structure St (F G : Type) where
  a : G
  x : G
  y : G
  u0 : F
  u1 : F
  qa : List F
  ql : List F
  qr : List F

/-- hyrax_proof.rs:253-283: the layers `d, d + 1, …`, from the output down. -/
def layersVerify (ch : Oracle F G) (params : Params G) (proofs : List (ZkProof F G)) (c : Circuit) (n : Nat) :
    Nat → Nat → St F G → Vf F G (St F G)
  | 0, _, st => pure st
  | k + 1, d, st => do
    let next ← orPanic c.layers[c.depth - d - 2]?
    let ng := padTo next.gatesCount
    let p ← orPanic proofs[d]?
    let layer ← orPanic c.layers[c.depth - d - 1]?
    let (x, y, qa, ql, qr) ← zkVerify ch params p st.a st.u0 st.u1 st.qa st.ql st.qr layer.gates n ng
    if d < c.depth - 2 then
      let u0 ← challenge ch "u0"
      let u1 ← challenge ch "u1"
      let a := u0 • x + u1 • y
      say (.pt "comm_a_i" a)
      layersVerify ch params proofs c n k (d + 1) ⟨a, x, y, u0, u1, qa, ql, qr⟩
    else
      layersVerify ch params proofs c n k (d + 1) ⟨st.a, x, y, st.u0, st.u1, qa, ql, qr⟩

/-- hyrax_proof.rs:285-291: the public inputs of all instances, each padded to a power of two. -/
def inputVec (inputs : List (List F)) : List F :=
  inputs.flatMap fun v => v ++ List.replicate (padTo v.length - v.length) 0

/-- hyrax_proof.rs:293-321 and 323-351: the claim about the input layer. -/
def inputVerify (ch : Oracle F G) (params : Params G) (witness : List G) (prod : DotProof F G) (y : G)
    (eq : Spartan.EqProof F G) (inputVec qa q : List F) (comm : G) : Vf F G Unit := do
  ensure .panic (1 ≤ q.length)
  let point := qa ++ q.tail
  ensure .panic (← evalVerify ch params.pc point witness y prod)
  let eval ← orPanic (evalValue inputVec point)
  let commInput := commitVec params.pc.gen1.generators [eval] params.pc.gen1.h (0 : F)
  let q0 := q.headD 0
  let evalZ := (1 - q0) • y + q0 • commInput
  ensure .panic (← eqVerify ch params.pc.gen1 comm evalZ eq)

/-- hyrax_proof.rs:231-234: inputs and outputs enter the transcript in turns; missing inputs panic. -/
def sayInstances : List (List F) → List (List F) → Vf F G Unit
  | _, [] => pure ()
  | [], _ :: _ => throw .panic
  | i :: is, o :: os => do
    say (.frs "input_i" i)
    say (.frs "output_i" o)
    sayInstances is os

/-- hyrax_proof.rs:214-354 `verify`: `.ok ()` is `true`. `circuit.depth = 0` underflows. -/
def verify (ch : Oracle F G) (params : Params G) (proof : HyraxProof F G) (outputs inputs : List (List F))
    (c : Circuit) (circuitHash paramHash : F) : Vf F G Unit := do
  say (.fr "circuit_to_hash" circuitHash)
  say (.fr "param_to_hash" paramHash)
  let n := outputs.length
  ensure .panic (padTo n = n)
  ensure .panic (0 < n)
  sayInstances inputs outputs
  say (.pts "comm_witness" proof.witness)
  let (result, qa, ql) ← evalOutputs ch outputs
  let a := commitVec params.gen1.generators [result] params.gen1.h (0 : F)
  say (.pt "comm_claim_a0" a)
  ensure .panic (1 ≤ c.depth)
  let st ← layersVerify ch params proof.proofs c n (c.depth - 1) 0 ⟨a, a, a, 1, 0, qa, ql, ql⟩
  let ins := inputVec (inputs.take n)
  inputVerify ch params proof.witness proof.prod0 proof.y0 proof.eq0 ins st.qa st.ql st.x
  inputVerify ch params proof.witness proof.prod1 proof.y1 proof.eq1 ins st.qa st.qr st.y

end Zkp.Hx
