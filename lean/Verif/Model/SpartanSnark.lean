/- Model of the evaluation-argument half of /repo/spartan/src/verify.rs (lines 54-101, 537-1083). -/
import Verif.Model.SpartanVerify

namespace Zkp.Spartan

open Zkp.Ml

variable {F : Type} [Field F] {G : Type} [AddCommGroup G] [Module F G]

/-- data_structure.rs:49-53 `R1CSEvalsParameters`. -/
structure EvalsParams (G : Type) where
  ops : PcParams G
  mem : PcParams G
  derefs : PcParams G

/-- data_structure.rs:126-132 `EncodeCommit`. -/
structure EncodeCommit (G : Type) where
  n : Nat
  m : Nat
  ops : List G
  mem : List G

/-- data_structure.rs:315-320 `LayerProductCircuitProof`; a polynomial is its coefficient list (an
`ark_poly` `DensePolynomial`, lowest degree first). -/
structure LayerProof (F : Type) where
  polys : List (List F)
  left : List F
  right : List F

/-- data_structure.rs:322-326 `ProductCircuitEvalProof`. -/
structure CircuitEvalProof (F : Type) where
  layers : List (LayerProof F)
  dotpRow : List F
  dotpCol : List F
  dotpVal : List F

/-- The claimed products of one memory: initial, reads, writes, final (the tuples of
data_structure.rs:317-318). -/
structure MemClaims (F : Type) where
  init : F
  read : List F
  write : List F
  audit : F

/-- data_structure.rs:307-313 `ProductLayerProof`. -/
structure ProductLayerProof (F : Type) where
  memory : CircuitEvalProof F
  ops : CircuitEvalProof F
  dotpLeft : List F
  dotpRight : List F
  row : MemClaims F
  col : MemClaims F

/-- data_structure.rs:329-337 `HashLayerProof`; `evals_row` and `evals_col` are (addresses, read times,
final time). -/
structure HashLayerProof (F G : Type) where
  derefs : DotProof F G
  ops : DotProof F G
  mem : DotProof F G
  derefRow : List F
  derefCol : List F
  row : List F × List F × F
  col : List F × List F × F
  vals : List F

/-- data_structure.rs:204-208 `R1CSEvalsProof`. -/
structure EvalsProof (F G : Type) where
  layer : ProductLayerProof F
  hash : HashLayerProof F G
  derefsCommit : List G

/-- data_structure.rs:183-187 `SNARKProof`. -/
structure SnarkProof (F G : Type) where
  sat : SatProof F G
  evals : F × F × F
  proof : EvalsProof F G

/-- `DensePolynomial::evaluate`. Used at verify.rs:830-836. -/
def polyEval (p : List F) (x : F) : F := p.foldr (fun c acc => c + x * acc) 0

variable [DecidableEq F]

/-- verify.rs:827-838: the rounds of `sum_check_cubic_verify` (the round count is checked by the
caller below). -/
def cubicRounds (ch : Oracle F G) : List (List F) → F → Vf F G (List F × F)
  | [], claim => pure ([], claim)
  | p :: ps, claim => do
    say (.frs "comm_poly" p)
    ensure .panic (polyEval p 0 + polyEval p 1 = claim)
    let r ← challenge ch "challenge_nextround"
    let (rs, final) ← cubicRounds ch ps (polyEval p r)
    pure (r :: rs, final)

/-- verify.rs:817-841 `sum_check_cubic_verify`. -/
def cubicVerify (ch : Oracle F G) (polys : List (List F)) (numRounds : Nat) (claim : F) :
    Vf F G (List F × F) := do
  ensure .panic (polys.length = numRounds)
  cubicRounds ch polys claim

/-- verify.rs:759-762: the claims of a layer enter the transcript in pairs. -/
def sayPairs (l1 l2 : String) : List F → List F → Vf F G Unit
  | x :: xs, y :: ys => do
    say (.fr l1 x)
    say (.fr l2 y)
    sayPairs l1 l2 xs ys
  | _, _ => pure ()

/-- verify.rs:774-784: the dot-product claims of the last layer enter the transcript and the expected
value; `k` is the position of the coefficient. Shorter lists panic. -/
def sayDotp (coeffs : List F) : Nat → List F → List F → List F → Vf F G F
  | _, [], _, _ => pure 0
  | k, x :: xs, y :: ys, z :: zs => do
    say (.fr "claim_dotp_row" x)
    say (.fr "claim_dotp_col" y)
    say (.fr "claim_dotp_val" z)
    let c ← orPanic coeffs[k]?
    let rest ← sayDotp coeffs (k + 1) xs ys zs
    pure (c * x * y * z + rest)
  | _, _ :: _, _, _ => throw .panic

/-- verify.rs:792-807: pairs of claims are joined at the layer challenge. -/
def joinDotp (r : F) (row col val : List F) : Option (List F) :=
  ((List.range (row.length / 2)).mapM fun i => do
    let r0 ← row[2 * i]?
    let r1 ← row[2 * i + 1]?
    let c0 ← col[2 * i]?
    let c1 ← col[2 * i + 1]?
    let v0 ← val[2 * i]?
    let v1 ← val[2 * i + 1]?
    some [r0 + r * (r1 - r0), c0 + r * (c1 - c0), v0 + r * (v1 - v0)]).map List.flatten

/-- verify.rs:732-812: the layers `i, i + 1, …` of `product_circuit_eval_verify`; `claims` are the
claims to verify, `rands` the point of the previous layer (`i` coordinates), `last` is
`layer_num - 1`, and `nprod` is the number of product circuits. -/
def layersVerify (ch : Oracle F G) (proof : CircuitEvalProof F) (dotp : List F) (nprod last : Nat) :
    List (LayerProof F) → Nat → List F → List F → List F → Vf F G (List F × List F × List F)
  | [], _, claims, claimsDotp, rands => pure (claims, claimsDotp, rands)
  | l :: ls, i, claims, _, rands => do
    let claims := if i = last then claims ++ dotp else claims
    let coeffs ← challenges ch "rand_coeffs_next_layer" claims.length
    let claim := (List.zipWith (· * ·) claims coeffs).sum
    let (r, final) ← cubicVerify ch l.polys i claim
    ensure .panic (l.left.length = l.right.length)
    ensure .panic (l.left.length = nprod)
    sayPairs "claim_prod_left" "claim_prod_right" l.left l.right
    ensure .panic (rands.length = r.length)
    let eq := (List.zipWith (fun x y => x * y + (1 - x) * (1 - y)) r rands).prod
    let expected := (List.zipWith (fun c (p : F × F) => c * (p.1 * p.2 * eq)) coeffs (l.left.zip l.right)).sum
    let dot ← if i = last then sayDotp coeffs l.left.length proof.dotpRow proof.dotpCol proof.dotpVal
      else pure 0
    ensure .panic (expected + dot = final)
    let rl ← challenge ch "challenge_r_layer"
    let next := List.zipWith (fun a b => a + rl * (b - a)) l.left l.right
    let nextDotp ← if i = last then orPanic (joinDotp rl proof.dotpRow proof.dotpCol proof.dotpVal)
      else pure []
    layersVerify ch proof dotp nprod last ls (i + 1) next nextDotp (rl :: r)

/-- verify.rs:717-815 `product_circuit_eval_verify`. -/
def circuitEvalVerify (ch : Oracle F G) (proof : CircuitEvalProof F) (claims dotp : List F) (n : Nat) :
    Vf F G (List F × List F × List F) := do
  ensure .panic (proof.layers.length = Nat.clog 2 n)
  layersVerify ch proof dotp claims.length (Nat.clog 2 n - 1) proof.layers 0 claims [] []

/-- verify.rs:652-661, 663-672: the product equation of one memory, and its claims in the transcript. -/
def memClaims (name : String) (c : MemClaims F) : Vf F G Unit := do
  ensure .panic (c.init * c.write.prod = c.read.prod * c.audit)
  say (.fr s!"claim_{name}_eval_init" c.init)
  say (.frs s!"claim_{name}_eval_read" c.read)
  say (.frs s!"claim_{name}_eval_write" c.write)
  say (.fr s!"claim_{name}_eval_audit" c.audit)

/-- verify.rs:674-684: the dot-product claims. -/
def dotpClaims : List F → List F → List F → Vf F G (List F)
  | l :: ls, r :: rs, e :: es => do
    ensure .panic (l + r = e)
    say (.fr "claim_eval_dotp_left" l)
    say (.fr "claim_eval_dotp_right" r)
    let rest ← dotpClaims ls rs es
    pure (l :: r :: rest)
  | _, _, _ => pure []

/-- verify.rs:619-715 `product_layer_verify`. -/
def productLayerVerify (ch : Oracle F G) (proof : ProductLayerProof F) (n m : Nat) (evals : List F) :
    Vf F G ((List F × List F × List F) × (List F × List F × List F)) := do
  say (.frs "protocol-name: Sparse polynomial product layer proof" [])
  ensure .panic (proof.row.read.length = 3 ∧ proof.row.write.length = 3 ∧ proof.col.read.length = 3 ∧
    proof.col.write.length = 3 ∧ proof.dotpLeft.length = 3 ∧ proof.dotpRight.length = 3 ∧ evals.length = 3)
  memClaims "row" proof.row
  memClaims "col" proof.col
  let dotp ← dotpClaims proof.dotpLeft proof.dotpRight evals
  let ops ← circuitEvalVerify ch proof.ops
    (proof.row.read ++ proof.row.write ++ proof.col.read ++ proof.col.write) dotp n
  let mem ← circuitEvalVerify ch proof.memory
    [proof.row.init, proof.row.audit, proof.col.init, proof.col.audit] [] m
  pure (ops, mem)

/-- verify.rs:1030-1083 `behind_verify_for_timestamp`: the claimed evaluations of one memory against the
claims that came out of the product circuits. `none` is a failed assertion or an index out of range.
Both loops run over the addresses that come with the proof. -/
def behindVerify (randsMem : List F) (claims : MemClaims F) (r vals addrs readTs : List F) (auditTs : F)
    (g1 g2 : F) : Option Unit := do
  let addr := ((List.range randsMem.length).map fun i =>
    randsMem.getD i 0 * ((2 ^ (randsMem.length - i - 1) : Nat) : F)).sum
  let val ← evalEqXY r randsMem
  guard (claims.init = addr * g1 * g1 + val * g1 - g2)
  (List.range addrs.length).forM fun i => do
    let a ← addrs[i]?
    let v ← vals[i]?
    let t ← readTs[i]?
    let c ← claims.read[i]?
    guard (c = a * g1 * g1 + v * g1 + t - g2)
  (List.range addrs.length).forM fun i => do
    let a ← addrs[i]?
    let v ← vals[i]?
    let t ← readTs[i]?
    let c ← claims.write[i]?
    guard (c = a * g1 * g1 + v * g1 + (t + 1) - g2)
  guard (claims.audit = addr * g1 * g1 + val * g1 + auditTs - g2)

/-- verify.rs:870-890, 928-946, 965-982: values padded to a power of two, absorbed, and folded at fresh
challenges (last variable first) into one value; returns the challenges too. -/
def foldEvals (ch : Oracle F G) (sayLabel chalLabel : String) (evals : List F) : Vf F G (List F × F) := do
  let evals := evals ++ List.replicate (padTo evals.length - evals.length) 0
  say (.frs sayLabel evals)
  let cs ← challenges ch chalLabel (Nat.clog 2 evals.length)
  let out ← orPanic (cs.reverse.foldlM (fun e c => boundPolyVarBot e c) evals)
  match out with
  | [e] => pure (cs, e)
  | _ => throw .panic

variable [DecidableEq G]

/-- verify.rs:893-908, 948-963, 985-1000: the folded value is opened against a commitment. -/
def openFolded (ch : Oracle F G) (params : PcParams G) (label : String) (cs rands : List F) (e : F)
    (commits : List G) (proof : DotProof F G) : Vf F G Unit := do
  say (.fr label e)
  let c := commitVec params.gen1.generators [e] params.gen1.h 0
  ensure .panic (← innerProductVerify ch params (cs ++ rands) commits c proof)

/-- verify.rs:843-1028 `hash_layer_verify`. -/
def hashLayerVerify (ch : Oracle F G) (params : EvalsParams G) (proof : HashLayerProof F G) (rx ry : List F)
    (randsOps randsMem : List F) (g1 g2 : F) (row col : MemClaims F) (dotp : List F)
    (commit : EncodeCommit G) (derefs : List G) : Vf F G Unit := do
  say (.frs "protocol-name: Sparse polynomial hash layer proof" [])
  ensure .panic (dotp.length = 9)
  ensure .panic (proof.derefRow.length = proof.derefCol.length ∧ proof.derefRow.length = 3)
  say (.frs "protocol-name: Derefs evaluation proof" [])
  let (cs, e) ← foldEvals ch "evals_ops_val" "challenge_combine_n_to_one" (proof.derefRow ++ proof.derefCol)
  openFolded ch params.derefs "joint_claim_eval" cs randsOps e derefs proof.derefs
  ensure .panic (proof.vals.length = 3)
  ensure .panic ((List.range 3).all fun i =>
    dotp[i * 3]? = proof.derefRow[i]? ∧ dotp[i * 3 + 1]? = proof.derefCol[i]? ∧
      dotp[i * 3 + 2]? = proof.vals[i]?)
  let (cs, e) ← foldEvals ch "claim_evals_ops" "challenge_combine_n_to_one"
    (proof.row.1 ++ proof.row.2.1 ++ proof.col.1 ++ proof.col.2.1 ++ proof.vals)
  openFolded ch params.ops "joint_claim_eval_ops" cs randsOps e commit.ops proof.ops
  let (cs, e) ← foldEvals ch "claim_evals_mem" "challenge_combine_two_to_one" [proof.row.2.2, proof.col.2.2]
  openFolded ch params.mem "joint_claim_eval_mem" cs randsMem e commit.mem proof.mem
  orPanic (behindVerify randsMem row rx proof.derefRow proof.row.1 proof.row.2.1 proof.row.2.2 g1 g2)
  orPanic (behindVerify randsMem col ry proof.derefCol proof.col.1 proof.col.2.1 proof.col.2.2 g1 g2)

/-- verify.rs:538-617 `sparse_poly_eval_verify`. -/
def sparseEvalVerify (ch : Oracle F G) (params : EvalsParams G) (proof : EvalsProof F G)
    (commit : EncodeCommit G) (rx ry : List F) (evals : F × F × F) : Vf F G Unit := do
  say (.frs "protocol-name: sparse polynomial evaluation proof" [])
  let (rx, ry) := equalizeLength rx ry
  ensure .panic (2 ^ rx.length = commit.m)
  say (.pts "comm_poly_row_col_ops_val" proof.derefsCommit)
  let g1 ← challenge ch "challenge_gamma_hash"
  let g2 ← challenge ch "challenge_gamma_hash"
  let ((ops, dotp, randsOps), (mem, _, randsMem)) ←
    productLayerVerify ch proof.layer commit.n commit.m [evals.1, evals.2.1, evals.2.2]
  ensure .panic (mem.length = 4 ∧ ops.length = 12 ∧ dotp.length = 9)
  hashLayerVerify ch params proof.hash rx ry randsOps randsMem g1 g2
    ⟨mem.getD 0 0, ops.take 3, (ops.drop 3).take 3, mem.getD 1 0⟩
    ⟨mem.getD 2 0, (ops.drop 6).take 3, (ops.drop 9).take 3, mem.getD 3 0⟩
    dotp commit proof.derefsCommit

/-- verify.rs:54-101 `verify_snark_proof`: `.ok ()` is `Ok(true)`. -/
def verifySnark (ch : Oracle F G) (satParams : SatParams G) (evalParams : EvalsParams G) (r1cs : Inst F)
    (inputs : List F) (proof : SnarkProof F G) (commit : EncodeCommit G)
    (r1csHash paramsHash encodeHash : F) : Except Stop Unit :=
  let run : Vf F G Unit := do
    let (rx, ry) ← satVerify ch satParams r1cs inputs proof.sat proof.evals
    say (.fr "Ar_claim" proof.evals.1)
    say (.fr "Br_claim" proof.evals.2.1)
    say (.fr "Cr_claim" proof.evals.2.2)
    say (.u64 "n" commit.n)
    say (.u64 "m" commit.m)
    say (.pts "encode_mem_commit" commit.mem)
    say (.pts "encode_ops_commit" commit.ops)
    sparseEvalVerify ch evalParams proof.proof commit rx ry proof.evals
  match run [.fr "Spartan SNARK proof: r1cs_hash" r1csHash, .fr "params_hash" paramsHash,
      .fr "encode_hash" encodeHash] with
  | .ok _ => .ok ()
  | .error e => .error e

end Zkp.Spartan
