/- Model of /repo/spartan/src/spark.rs `encode` and of the SNARK half of /repo/spartan/src/prover.rs (lines 137-198 and
1062-1809). Random scalars are arguments. -/
import Verif.Model.SpartanProver
import Verif.Model.SpartanSnark

namespace Zkp.Spartan

open Zkp.Ml Zkp.Sc Zkp.Cp

variable {F : Type} [Field F] {G : Type} [AddCommGroup G] [Module F G] [DecidableEq F] [DecidableEq G]

/-! ### Encoding of the instance -/

/-- data_structure.rs:159-165 `EncodeMemory`. -/
structure EncodeMemory (F : Type) where
  row : AddrTimestamps F
  col : AddrTimestamps F
  vals : List (List F)
  ops : List F
  mem : List F

/-- `Vec::resize` to at least the present length, as in spark.rs:39-47, 66 and 79. -/
def padWith {α : Type} (n : Nat) (d : α) (l : List α) : List α := l ++ List.replicate (n - l.length) d

/-- commitments.rs:10-40 `packing_poly_commit` with `is_blind = false`: all blinding factors are zero. -/
def packPlain (pc : PcParams G) (values : List F) : Vf F G (List G) :=
  packCommit pc.genN.generators pc.genN.h values (List.replicate (2 ^ (Nat.clog 2 values.length / 2)) 0)

/-- spark.rs:18-105 `encode`. It uses no transcript; the monad is only used for its panics. -/
def encode (params : EvalsParams G) (r1cs : Inst F) : Vf F G (EncodeMemory F × EncodeCommit G) := do
  ensure .panic (r1cs.a.length = r1cs.b.length)
  ensure .panic (r1cs.b.length = r1cs.c.length)
  let t := r1cs.t
  let m := padTo (max (t * 2) r1cs.numConstraints)
  let a := switchMatrixToList r1cs.a t
  let b := switchMatrixToList r1cs.b t
  let c := switchMatrixToList r1cs.c t
  let n := padTo (max (max a.2.1.length b.2.1.length) c.2.1.length)
  let vals := [a.1, b.1, c.1].map (padWith n 0)
  let row ← orPanic (memoryInTheHead ([a.2.1, b.2.1, c.2.1].map (padWith n 0)) n m)
  let col ← orPanic (memoryInTheHead ([a.2.2, b.2.2, c.2.2].map (padWith n 0)) n m)
  let opsList := (row.addrs ++ row.readTs ++ col.addrs ++ col.readTs ++ vals).flatten
  let ops := padWith (padTo opsList.length) 0 opsList
  let opsCommit ← packPlain params.ops ops
  let memList := row.auditTs ++ col.auditTs
  let mem := padWith (padTo memList.length) 0 memList
  let memCommit ← packPlain params.mem mem
  pure (⟨row, col, vals, ops, mem⟩, ⟨n, m, opsCommit, memCommit⟩)

/-! ### Product circuits -/

/-- The sum-check tables of one dot product: rows, columns, values. prover.rs:1218-1245. -/
abbrev Dotp (F : Type) := List F × List F × List F

/-- prover.rs:1406-1413: the dot-product claims of the last layer in the transcript. -/
def sayTriples : List F → List F → List F → Vf F G Unit
  | x :: xs, y :: ys, z :: zs => do
    say (.fr "claim_dotp_row" x)
    say (.fr "claim_dotp_col" y)
    say (.fr "claim_dotp_val" z)
    sayTriples xs ys zs
  | _, _, _ => pure ()

/-- prover.rs:1354-1366: the value of a dot product whose tables have the length of the weights. -/
def dotpSum (len : Nat) (d : Dotp F) : Option F :=
  if len = d.1.length ∧ len = d.2.1.length ∧ len = d.2.2.length then evaluateDotProductCircuit d.1 d.2.1 d.2.2 else none

/-- prover.rs:1331-1433: the loop of `product_circuit_eval_prover`, with `k` layers to go; `claims` are the claims to
verify and `rands` is the point of the previous layer. The results are the layer proofs, the final values of the dot
products, and the last point. Layer 0 comes last and has the dot products; without dot products its additional
lists are empty. -/
def layersProve (ch : Oracle F G) (circuits : List (ProductCircuit F)) (dotps : List (Dotp F)) :
    Nat → List F → List F → Vf F G (List (LayerProof F) × Dotp F × List F)
  | 0, _, rands => pure ([], ([], [], []), rands)
  | i + 1, claims, rands => do
    let lefts ← orPanic (circuits.mapM fun c => c.left[i]?)
    let rights ← orPanic (circuits.mapM fun c => c.right[i]?)
    ensure .panic ((lefts.zip rights).all fun p => p.1.length = p.2.length)
    let eq := evalEq rands
    ensure .panic (lefts.head?.map List.length = some eq.length)
    let dotps' := if i = 0 then dotps else []
    let sums ← orPanic (dotps'.mapM (dotpSum eq.length))
    let claims := claims ++ sums
    let coeffs ← challenges ch "rand_coeffs_next_layer" claims.length
    let claim := (List.zipWith (· * ·) claims coeffs).sum
    let (polys, r, (left, right, _), dotp) ← cubicProver ch (Nat.clog 2 eq.length) claim
      ⟨lefts, rights, eq, dotps'.map (·.1), dotps'.map (·.2.1), dotps'.map (·.2.2)⟩ coeffs
    sayPairs "claim_prod_left" "claim_prod_right" left right
    sayTriples dotp.1 dotp.2.1 dotp.2.2
    let rl ← challenge ch "challenge_r_layer"
    let next := List.zipWith (fun a b => a + rl * (b - a)) left right
    let (layers, final, rands') ← layersProve ch circuits dotps i next (rl :: r)
    pure (⟨polys, left, right⟩ :: layers, if i = 0 then dotp else final, rands')

/-- prover.rs:1313-1440 `product_circuit_eval_prover`. -/
def circuitEvalProve (ch : Oracle F G) (circuits : List (ProductCircuit F)) (dotps : List (Dotp F)) :
    Vf F G (CircuitEvalProof F × List F) := do
  let c ← orPanic circuits[0]?
  let claims ← orPanic (circuits.mapM evaluateProductCircuit)
  let (layers, dotp, rands) ← layersProve ch circuits dotps c.left.length claims []
  pure (⟨layers, dotp.1, dotp.2.1, dotp.2.2⟩, rands)

/-- prover.rs:1177-1194, 1195-1212: the claimed products of one memory. -/
def claimsOf (l : MemoryLayer F) : Option (MemClaims F) := do
  let init ← evaluateProductCircuit l.initProd
  let read ← l.readProd.mapM evaluateProductCircuit
  let write ← l.writeProd.mapM evaluateProductCircuit
  let audit ← evaluateProductCircuit l.auditProd
  some ⟨init, read, write, audit⟩

/-- prover.rs:1229-1234: the first or the second half of a dot product. -/
def halfDotp (d : Dotp F) : Dotp F × Dotp F :=
  let i := d.1.length / 2
  ((d.1.take i, d.2.1.take i, d.2.2.take i), (d.1.drop i, d.2.1.drop i, d.2.2.drop i))

/-- prover.rs:1236-1241: the value of one half. -/
def sumDotp (d : Dotp F) : F :=
  ((List.range d.1.length).map fun i => d.1.getD i 0 * d.2.1.getD i 0 * d.2.2.getD i 0).sum

/-- prover.rs:1164-1311 `product_layer_prover`: the proof and the two points. -/
def productLayerProve (ch : Oracle F G) (vals eRow eCol : List (List F)) (row col : MemoryLayer F) (evals : List F) :
    Vf F G (ProductLayerProof F × List F × List F) := do
  say (.frs "protocol-name: Sparse polynomial product layer proof" [])
  let rowC ← orPanic (claimsOf row)
  memClaims "row" rowC
  let colC ← orPanic (claimsOf col)
  memClaims "col" colC
  ensure .panic (eRow.length = evals.length)
  ensure .panic (eRow.length = eCol.length)
  ensure .panic (eRow.length = vals.length)
  let full : List (Dotp F) := eRow.zip (eCol.zip vals)
  ensure .panic (full.all fun d => d.2.1.length = d.1.length ∧ d.2.2.length = d.1.length)
  let halves := full.map halfDotp
  let dotpLeft := halves.map fun h => sumDotp h.1
  let dotpRight := halves.map fun h => sumDotp h.2
  let _ ← dotpClaims dotpLeft dotpRight evals
  let (ops, opsRands) ← circuitEvalProve ch (row.readProd ++ row.writeProd ++ col.readProd ++ col.writeProd)
    (halves.flatMap fun h => [h.1, h.2])
  let (mem, memRands) ← circuitEvalProve ch [row.initProd, row.auditProd, col.initProd, col.auditProd] []
  pure (⟨mem, ops, dotpLeft, dotpRight, rowC, colC⟩, opsRands, memRands)

/-! ### The hash layer -/

/-- The random scalars of one `inner_product_proof` (prover.rs:966-1060). -/
structure OpenRand (F : Type) where
  d : F
  rDelta : F
  rBeta : F
  bullet : List (F × F)

/-- prover.rs:1780-1809 `pre_prover_for_timestamp`. A list longer than the weights panics. -/
def preProve (opsRands memRands : List F) (ts : AddrTimestamps F) : Option (List F × List F × F) := do
  let addrs ← ts.addrs.mapM fun l => evalValue l opsRands
  let reads ← ts.readTs.mapM fun l => evalValue l opsRands
  let audit ← evalValue ts.auditTs memRands
  some (addrs, reads, audit)

/-- prover.rs:1656-1668, 1711-1723, 1744-1756: the opening of a plain commitment at a folded point. -/
def openProve (ch : Oracle F G) (params : PcParams G) (label : String) (cs rands : List F) (e : F) (poly : List F)
    (rand : OpenRand F) : Vf F G (DotProof F G) := do
  say (.fr label e)
  let (proof, _) ← innerProductProve ch params poly [] (cs ++ rands) 0 e rand.d rand.rDelta rand.rBeta rand.bullet
  pure proof

/-- prover.rs:1609-1778 `hash_layer_prover`; `eAll` is the padded list of all values read. -/
def hashLayerProve (ch : Oracle F G) (params : EvalsParams G) (enc : EncodeMemory F) (opsRands memRands : List F)
    (eRow eCol : List (List F)) (eAll : List F) (r1 r2 r3 : OpenRand F) : Vf F G (HashLayerProof F G) := do
  say (.frs "protocol-name: Sparse polynomial hash layer proof" [])
  let derefRow ← orPanic (eRow.mapM fun l => evalValue l opsRands)
  let derefCol ← orPanic (eCol.mapM fun l => evalValue l opsRands)
  ensure .panic (Nat.clog 2 eAll.length = opsRands.length + Nat.clog 2 (padTo (derefRow ++ derefCol).length))
  say (.frs "protocol-name: Derefs evaluation proof" [])
  let (cs, e) ← foldEvals ch "evals_ops_val" "challenge_combine_n_to_one" (derefRow ++ derefCol)
  let p1 ← openProve ch params.derefs "joint_claim_eval" cs opsRands e eAll r1
  let row ← orPanic (preProve opsRands memRands enc.row)
  let col ← orPanic (preProve opsRands memRands enc.col)
  let vals ← orPanic (enc.vals.mapM fun l => evalValue l opsRands)
  let (cs, e) ← foldEvals ch "claim_evals_ops" "challenge_combine_n_to_one"
    (row.1 ++ row.2.1 ++ col.1 ++ col.2.1 ++ vals)
  let p2 ← openProve ch params.ops "joint_claim_eval_ops" cs opsRands e enc.ops r2
  let (cs, e) ← foldEvals ch "claim_evals_mem" "challenge_combine_two_to_one" [row.2.2, col.2.2]
  let p3 ← openProve ch params.mem "joint_claim_eval_mem" cs memRands e enc.mem r3
  pure ⟨p1, p2, p3, derefRow, derefCol, row, col, vals⟩

/-- prover.rs:1086-1103: the values read from a memory. -/
def derefs (mem : List F) (addrs : List (List Nat)) : Option (List (List F)) :=
  addrs.mapM fun l => l.mapM fun a => mem[a]?

/-- prover.rs:1062-1162 `sparse_poly_eval_proof`, with spark.rs:178-207 `circuit_eval_opt`. -/
def sparseEvalProve (ch : Oracle F G) (params : EvalsParams G) (rx ry : List F) (evals : F × F × F) (enc : EncodeMemory F)
    (r1 r2 r3 : OpenRand F) : Vf F G (EvalsProof F G) := do
  say (.frs "protocol-name: sparse polynomial evaluation proof" [])
  let (rows, cols) := equalizeLength rx ry
  let memRow := evalEq rows
  let memCol := evalEq cols
  let eRow ← orPanic (derefs memRow enc.row.addrIndex)
  let eCol ← orPanic (derefs memCol enc.col.addrIndex)
  let eList := (eRow ++ eCol).flatten
  let eAll := padWith (padTo eList.length) 0 eList
  let derefsCommit ← packPlain params.derefs eAll
  say (.pts "comm_poly_row_col_ops_val" derefsCommit)
  let g1 ← challenge ch "challenge_gamma_hash"
  let g2 ← challenge ch "challenge_gamma_hash"
  let row ← orPanic (memoryChecking enc.row.addrs memRow enc.row.readTs enc.row.auditTs eRow g1 g2)
  let col ← orPanic (memoryChecking enc.col.addrs memCol enc.col.readTs enc.col.auditTs eCol g1 g2)
  let (layer, opsRands, memRands) ← productLayerProve ch enc.vals eRow eCol row col [evals.1, evals.2.1, evals.2.2]
  let hash ← hashLayerProve ch params enc opsRands memRands eRow eCol eAll r1 r2 r3
  pure ⟨layer, hash, derefsCommit⟩

/-- The transcript of a SNARK before the first message (prover.rs:154-158, verify.rs:64-67). -/
def snarkStart (r1csHash paramsHash encodeHash : F) : Transcript F G :=
  [.fr "Spartan SNARK proof: r1cs_hash" r1csHash, .fr "params_hash" paramsHash, .fr "encode_hash" encodeHash]

/-- prover.rs:137-198 `create_snark_proof`. -/
def createSnark (ch : Oracle F G) (satParams : SatParams G) (evalParams : EvalsParams G) (r1cs : Inst F) (cs : CS F)
    (enc : EncodeMemory F) (commit : EncodeCommit G) (rand : SatRand F) (r1 r2 r3 : OpenRand F)
    (r1csHash paramsHash encodeHash : F) : Except Stop (SnarkProof F G) :=
  let run : Vf F G (SnarkProof F G) := do
    let (sat, rx, ry) ← satProve ch satParams r1cs cs rand
    let a ← orPanic (evaluateMle r1cs.a rx ry)
    let b ← orPanic (evaluateMle r1cs.b rx ry)
    let c ← orPanic (evaluateMle r1cs.c rx ry)
    say (.fr "Ar_claim" a)
    say (.fr "Br_claim" b)
    say (.fr "Cr_claim" c)
    say (.u64 "n" commit.n)
    say (.u64 "m" commit.m)
    say (.pts "encode_mem_commit" commit.mem)
    say (.pts "encode_ops_commit" commit.ops)
    let proof ← sparseEvalProve ch evalParams rx ry (a, b, c) enc r1 r2 r3
    pure ⟨sat, (a, b, c), proof⟩
  match run (snarkStart r1csHash paramsHash encodeHash) with
  | .ok (p, _) => .ok p
  | .error e => .error e

end Zkp.Spartan
