/- Model of the proofs about commitments: /repo/hyrax/src/commitment.rs, /repo/libra/src/commitment.rs (the
same code up to variable names and line numbers) and the matching functions of /repo/spartan/src/prover.rs,
/repo/spartan/src/inner_product.rs. The verifiers of the equality, knowledge and product proof are the same
in all three crates and are modelled once, in Model/SpartanVerify.lean. Random scalars are arguments. -/
import Verif.Model.SpartanVerify
import Verif.Model.Bulletproofs

namespace Zkp.Cp

open Zkp.Ml Zkp.Spartan

variable {F : Type} [Field F] {G : Type} [AddCommGroup G] [Module F G] [DecidableEq F] [DecidableEq G]

/-- hyrax/src/commitment.rs:19-40 `EqProof::prover`; libra/src/commitment.rs:19-40;
spartan/src/prover.rs:932-965 `eq_proof`. -/
def eqProve (ch : Oracle F G) (params : MultiParams G) (claim1 blind1 claim2 blind2 r : F) :
    Vf F G (Spartan.EqProof F G) := do
  let c1 := commitVec params.generators [claim1] params.h blind1
  say (.pt "C1" c1)
  let c2 := commitVec params.generators [claim2] params.h blind2
  say (.pt "C2" c2)
  let alpha := r • params.h
  say (.pt "alpha" alpha)
  let c ← challenge ch "c"
  pure ⟨alpha, c * (blind1 - blind2) + r⟩

/-- hyrax/src/commitment.rs:70-95 `KnowledgeProof::prover`; libra/src/commitment.rs:69-94;
spartan/src/prover.rs:829-863 `knowledge_proof`. -/
def knowledgeProve (ch : Oracle F G) (params : MultiParams G) (claim blind t1 t2 : F) :
    Vf F G (KnowProof F G × G) := do
  let commit := commitVec params.generators [claim] params.h blind
  say (.pt "C" commit)
  let t := commitVec params.generators [t1] params.h t2
  say (.pt "alpha" t)
  let c ← challenge ch "c"
  pure (⟨t, claim * c + t1, blind * c + t2⟩, commit)

/-- hyrax/src/commitment.rs:122-170 `ProductProof::prover`; libra/src/commitment.rs:122-170;
spartan/src/prover.rs:865-930 `product_proof`. -/
def productProve (ch : Oracle F G) (params : MultiParams G) (claimX blindX claimY blindY prod blindProd : F)
    (b1 b2 b3 b4 b5 : F) : Vf F G (ProdProof F G × G × G × G) := do
  let x := commitVec params.generators [claimX] params.h blindX
  say (.pt "X" x)
  let y := commitVec params.generators [claimY] params.h blindY
  say (.pt "Y" y)
  let z := commitVec params.generators [prod] params.h blindProd
  say (.pt "Z" z)
  let alpha := commitVec params.generators [b1] params.h b2
  say (.pt "alpha" alpha)
  let beta := commitVec params.generators [b3] params.h b4
  say (.pt "beta" beta)
  let delta := commitVec [x] [b3] params.h b5
  say (.pt "delta" delta)
  let c ← challenge ch "c"
  pure (⟨alpha, beta, delta, [b1 + c * claimX, b2 + c * blindX, b3 + c * claimY, b4 + c * blindY,
    b5 + c * (blindProd - blindX * claimY)]⟩, x, y, z)

/-- hyrax/src/commitment.rs:214-220 `DotProductProof`; libra/src/commitment.rs:212-218. -/
structure LinDotProof (F G : Type) where
  z : List F
  delta : G
  beta : G
  zDelta : F
  zBeta : F

/-- hyrax/src/commitment.rs:223-281 `DotProductProof::prover`; libra/src/commitment.rs:221-279. The labels
`delta` and `beta` carry the commitments `comm_x` and `comm_y`, and the "dot product" of `a` and `d` is a
`product()` of all the terms. `d` is as long as `a` (it is drawn so). -/
def linDotProve (ch : Oracle F G) (params : PcParams G) (x : List F) (blindX : F) (a : List F) (y blindY : F)
    (d : List F) (rBeta rDelta : F) : Vf F G (LinDotProof F G × G × G) := do
  ensure .panic (a.length = x.length)
  ensure .panic (a.length ≤ params.n)
  let cx := commitVec params.genN.generators x params.genN.h blindX
  say (.pt "Cx" cx)
  let cy := commitVec params.gen1.generators [y] params.gen1.h blindY
  say (.pt "Cy" cy)
  let delta := commitVec params.genN.generators d params.genN.h rDelta
  say (.pt "delta" cx)
  let ad := (List.zipWith (· * ·) a d).prod
  let beta := commitVec params.gen1.generators [ad] params.gen1.h rBeta
  say (.pt "beta" cy)
  let c ← challenge ch "c"
  pure (⟨List.zipWith (fun x d => c * x + d) x d, delta, beta, c * blindX + rDelta, c * blindY + rBeta⟩, cx, cy)

/-- hyrax/src/commitment.rs:283-323 `DotProductProof::verify`; libra/src/commitment.rs:281-321. -/
def linDotVerify (ch : Oracle F G) (params : PcParams G) (cx cy : G) (a : List F) (proof : LinDotProof F G) :
    Vf F G Bool := do
  say (.pt "Cx" cx)
  say (.pt "Cy" cy)
  say (.pt "delta" proof.delta)
  say (.pt "beta" proof.beta)
  let c ← challenge ch "c"
  let rs1 := c • cx + proof.delta = commitVec params.genN.generators proof.z params.genN.h proof.zDelta
  ensure .panic (a.length ≤ proof.z.length)
  let za := (List.zipWith (· * ·) (proof.z.take a.length) a).prod
  let rs2 := c • cy + proof.beta = commitVec params.gen1.generators [za] params.genN.h proof.zBeta
  pure (decide rs1 && decide rs2)

/-- What `BulletReduceProof::prover` returns, without the unused `gamma_hat`.
hyrax/src/commitment.rs:485-570, libra/src/commitment.rs:483-570, spartan/src/inner_product.rs:12-101. -/
structure Bullet (F G : Type) where
  L : List G
  R : List G
  a : F
  b : F
  g : G
  blind : F

/-- hyrax/src/commitment.rs:514-569: the `while` loop, one pass per unit of the first argument (`n = 2^k`,
halved in every pass), and 569-584; libra/src/commitment.rs:513-574; spartan/src/inner_product.rs:34-101. -/
def bulletLoop (ch : Oracle F G) (q h : G) : Nat → List G → List F → List F → F → List (F × F) →
    Vf F G (Bullet F G)
  | 0, g, a, b, blind, _ => do
    ensure .panic (a.length = 1 ∧ b.length = 1)
    let a0 ← orPanic a[0]?
    let b0 ← orPanic b[0]?
    let g0 ← orPanic g[0]?
    pure ⟨[], [], a0, b0, g0, blind⟩
  | k + 1, g, a, b, blind, blinds => do
    let n := 2 ^ k
    ensure .panic (2 * n ≤ g.length)
    let (bl, br) ← orPanic blinds[0]?
    let cL := Bp.innerProduct (a.take n) (b.drop n)
    let cR := Bp.innerProduct (a.drop n) (b.take n)
    let L := msm (g.drop n) (a.take n) + msm [q, h] [cL, bl]
    let R := msm (g.take n) (a.drop n) + msm [q, h] [cR, br]
    say (.pt "L" L)
    say (.pt "R" R)
    let x ← challenge ch "x"
    ensure .panic (x ≠ 0)
    let p ← bulletLoop ch q h k (List.zipWith (fun l r => x⁻¹ • l + x • r) (g.take n) (g.drop n))
      (List.zipWith (fun l r => l * x + r * x⁻¹) (a.take n) (a.drop n))
      (List.zipWith (fun l r => l * x⁻¹ + r * x) (b.take n) (b.drop n))
      (blind + x * x * bl + x⁻¹ * x⁻¹ * br) blinds.tail
    pure ⟨L :: p.L, R :: p.R, p.a, p.b, p.g, p.blind⟩

/-- hyrax/src/commitment.rs:491-578 `BulletReduceProof::prover`; libra/src/commitment.rs:489-570;
spartan/src/inner_product.rs:12-102 `bullet_inner_product_proof` (the caller passes equal `h`). -/
def bulletProve (ch : Oracle F G) (g : List G) (q h : G) (a b : List F) (blind : F) (blinds : List (F × F)) :
    Vf F G (Bullet F G) := do
  ensure .panic (isPow2 a.length)
  ensure .panic (a.length = b.length)
  bulletLoop ch q h (Nat.log2 a.length) g a b blind blinds

/-- hyrax/src/commitment.rs:336-392 `LogDotProductProof::prover`; libra/src/commitment.rs:335-392;
spartan/src/prover.rs:999-1059. `label` is `c` in Hyrax and Libra, `challenge_tau` in Spartan. -/
def logDotProve (ch : Oracle F G) (label : String) (params : PcParams G) (x : List F) (blindX : F) (a : List F)
    (y blindY d rBeta rDelta : F) (blinds : List (F × F)) : Vf F G (DotProof F G × G × G) := do
  let cx := commitVec params.genN.generators x params.genN.h blindX
  say (.pt "Cx" cx)
  let cy := commitVec params.gen1.generators [y] params.gen1.h blindY
  say (.pt "Cy" cy)
  let q ← orPanic params.gen1.generators[0]?
  let p ← bulletProve ch params.genN.generators q params.gen1.h x a (blindX + blindY) blinds
  let delta := commitVec [p.g] [d] params.gen1.h rDelta
  say (.pt "delta" delta)
  let beta := commitVec params.gen1.generators [d] params.gen1.h rBeta
  say (.pt "beta" beta)
  let c ← challenge ch label
  pure (⟨p.L, p.R, delta, beta, d + c * (p.a * p.b), p.b * (c * p.blind + rBeta) + rDelta⟩, cx, cy)

/-- hyrax/src/commitment.rs:347-348: the assertions of `LogDotProductProof::prover` (Spartan has none). -/
def logDotAsserts (params : PcParams G) (x a : List F) : Vf F G Unit := do
  ensure .panic (a.length = x.length)
  ensure .panic (a.length ≤ params.n)

/-- hyrax/src/commitment.rs:394-424 `LogDotProductProof::verify`; libra/src/commitment.rs:394-426;
spartan/src/verify.rs:506-534. -/
def logDotVerify (ch : Oracle F G) (label : String) (params : PcParams G) (cx cy : G) (a : List F)
    (proof : DotProof F G) : Vf F G Bool := do
  say (.pt "Cx" cx)
  say (.pt "Cy" cy)
  let (aHat, gHat, gammaHat) ← bulletVerify ch params.genN.generators proof.L proof.R (cx + cy) a
  say (.pt "delta" proof.delta)
  say (.pt "beta" proof.beta)
  let c ← challenge ch label
  let g ← orPanic params.gen1.generators[0]?
  pure (decide (aHat • (c • gammaHat + proof.beta) + proof.delta =
    proof.z1 • (gHat + aHat • g) + proof.z2 • params.gen1.h))

/-- hyrax/src/evaluate.rs:116-149 `packing_poly_commit`; libra/src/evaluate.rs, spartan/src/commitments.rs
`packing_poly_commit`: the table is cut into `2^(size/2)` rows, each committed with one blinding. -/
def packCommit (g : List G) (h : G) (values blinds : List F) : Vf F G (List G) := do
  let size := Nat.clog 2 values.length
  let l := 2 ^ (size / 2)
  let r := 2 ^ (size - size / 2)
  ensure .panic (values.length = l * r)
  ensure .panic (blinds.length = l)
  pure ((List.range l).map fun i => commitVec g ((values.drop (i * r)).take r) h (blinds.getD i 0))

/-- hyrax/src/commitment.rs:440-461: the row combination `lz` and its blinding; an empty `blind_poly`
stands for zeros. -/
def combineRows (poly blindPoly ry : List F) : Vf F G (List F × F × List F) := do
  let size := Nat.clog 2 poly.length
  ensure .panic (ry.length = size)
  let l := 2 ^ (size / 2)
  let r := 2 ^ (size - size / 2)
  let blinds := if blindPoly.length = 0 then List.replicate l 0 else blindPoly
  ensure .panic (l = blinds.length)
  let le := evalEq (ry.take (size / 2))
  let re := evalEq (ry.drop (size / 2))
  ensure .panic (l * r ≤ poly.length)
  pure ((List.range r).map (fun j => ((List.range l).map fun i => le.getD i 0 * poly.getD (i * r + j) 0).sum),
    ((List.range l).map fun i => le.getD i 0 * blinds.getD i 0).sum, re)

/-- hyrax/src/commitment.rs:426-461 `reduce_prover`; libra/src/commitment.rs:424-459. -/
def evalProve (ch : Oracle F G) (params : PcParams G) (poly blindPoly ry : List F) (ryBlind eval : F)
    (d rBeta rDelta : F) (blinds : List (F × F)) : Vf F G (DotProof F G × G) := do
  let (lz, lzBlind, re) ← combineRows poly blindPoly ry
  logDotAsserts params lz re
  let (proof, _, cy) ← logDotProve ch "c" params lz lzBlind re eval ryBlind d rBeta rDelta blinds
  pure (proof, cy)

/-- hyrax/src/commitment.rs:463-481 `reduce_verifier`; libra/src/commitment.rs:461-479. -/
def evalVerify (ch : Oracle F G) (params : PcParams G) (ry : List F) (comms : List G) (cy : G)
    (proof : DotProof F G) : Vf F G Bool :=
  let size := ry.length
  let lz := commitVec comms (evalEq (ry.take (size / 2))) params.gen1.h (0 : F)
  logDotVerify ch "c" params lz cy (evalEq (ry.drop (size / 2))) proof

/-- spartan/src/prover.rs:966-1060 `inner_product_proof`. -/
def innerProductProve (ch : Oracle F G) (params : PcParams G) (poly blindPoly ry : List F) (ryBlind eval : F)
    (d rDelta rBeta : F) (blinds : List (F × F)) : Vf F G (DotProof F G × G) := do
  say (.frs "protocol-name: polynomial evaluation proof" [])
  let (lz, lzBlind, re) ← combineRows poly blindPoly ry
  let (proof, _, cy) ← logDotProve ch "challenge_tau" params lz lzBlind re eval ryBlind d rBeta rDelta blinds
  pure (proof, cy)

end Zkp.Cp
