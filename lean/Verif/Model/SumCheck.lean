/- Model of the sum-check provers: /repo/spartan/src/prover.rs, /repo/libra/src/sumcheck.rs.

All of them run the same loop on a list of value tables and differ in the summand and in the degree
of the round polynomial. The randomness of the prover is an argument. -/
import Mathlib.Data.List.DropRight
import Verif.Model.SpartanSnark

namespace Zkp.Sc

open Zkp.Ml Zkp.Spartan

variable {F : Type} [Field F] {G : Type} [AddCommGroup G] [Module F G]

/-- Row `j` of the tables. spartan/src/prover.rs:473-500. -/
def cells (ts : List (List F)) (j : Nat) : Nat → F := fun i => (ts.getD i []).getD j 0

/-- `(0..size).map(|j| …).sum()` of the summand `f` (e.g. spartan/src/prover.rs:476-478). -/
def partSum (f : (Nat → F) → F) (ts : List (List F)) (size : Nat) : F :=
  ((List.range size).map fun j => f (cells ts j)).sum

variable [DecidableEq F]

/-- `x.inverse().unwrap()`. spartan/src/prover.rs:504, 509, 649. -/
def inverse (x : F) : Option F := if x = 0 then none else some x⁻¹

/-- The parabola through the values at 0, 1, 2 (spartan/src/prover.rs:646-653, libra/src/sumcheck.rs:64-71,
141-148). -/
def quadCoeffs (e0 e1 e2 : F) : Option (List F) := do
  let half ← inverse (2 : F)
  let a := (e0 - (e1 + e1) + e2) * half
  let c := e0
  let b := e1 - a - c
  some [c, b, a]

/-- The cubic through the values at 0, 1, 2, 3 (spartan/src/prover.rs:499-513, 1535-1551). -/
def cubicCoeffs (e0 e1 e2 e3 : F) : Option (List F) := do
  let sixth ← inverse (6 : F)
  let half ← inverse (2 : F)
  let a := (-e0 + (e1 + e1) + e1 - (e2 + e2) - e2 + e3) * sixth
  let b := ((e0 + e0) - ((e1 + e1) + (e1 + e1)) - e1 + ((e2 + e2) + (e2 + e2)) - e3) * half
  let c := e1 - e0 - a - b
  let d := e0
  some [d, c, b, a]

/-- `DensePolynomial::from_coefficients_vec`: trailing zeros are removed. Used at spartan/src/prover.rs:516, 655. -/
def trim (p : List F) : List F := p.rdropWhile fun c => c = 0

/-- The length of the tables at the start of a pass. spartan/src/prover.rs:474. -/
def tableLen (ts : List (List F)) : Nat := (ts.getD 0 []).length

/-- spartan/src/prover.rs:634-655 (phase two), libra/src/sumcheck.rs:42-72, 118-149: the round polynomial
of degree two. -/
def quadRound (f : (Nat → F) → F) (ts : List (List F)) (claim : F) : Option (List F) := do
  let size := tableLen ts / 2
  let e0 := partSum f ts size
  let e1 := claim - e0
  let t2 ← ts.mapM (combineWithR · 2)
  let e2 := partSum f t2 size
  return trim (← quadCoeffs e0 e1 e2)

/-- spartan/src/prover.rs:473-516 (phase one): the round polynomial of degree three. -/
def cubicRound (f : (Nat → F) → F) (ts : List (List F)) (claim : F) : Option (List F) := do
  let size := tableLen ts / 2
  let e0 := partSum f ts size
  let e1 := claim - e0
  let t2 ← ts.mapM (combineWithR · 2)
  let e2 := partSum f t2 size
  let t3 ← ts.mapM (combineWithR · 3)
  let e3 := partSum f t3 size
  return trim (← cubicCoeffs e0 e1 e2 e3)

/-- `combine_with_r` on all tables. spartan/src/prover.rs:531-534. -/
def foldTables (ts : List (List F)) (r : F) : Option (List (List F)) := ts.mapM (combineWithR · r)

/-- The loop of a prover that sends its round polynomials (libra/src/sumcheck.rs:42-87, 118-162;
spartan/src/prover.rs:1467-1588): the polynomials, the challenges and the folded tables. `S` is the type
of the tables. -/
def plainRounds {S : Type} (ch : Oracle F G) (label : String) (round : S → F → Option (List F))
    (fold : S → F → Option S) : Nat → F → S → Vf F G (List (List F) × List F × S)
  | 0, _, ts => pure ([], [], ts)
  | n + 1, claim, ts => do
    let poly ← orPanic (round ts claim)
    say (.frs label poly)
    let r ← challenge ch "challenge_nextround"
    let ts' ← orPanic (fold ts r)
    let (polys, rs, final) ← plainRounds ch label round fold n (polyEval poly r) ts'
    pure (poly :: polys, r :: rs, final)

/-! ### Libra without hiding -/

/-- libra/src/sumcheck.rs:47: tables `f`, `mul_hg`, `add_hg1`, `add_hg2`. -/
def libraOne (v : Nat → F) : F := v 0 * v 1 + v 0 * v 2 + v 3

/-- libra/src/sumcheck.rs:121-123: tables `f`, `mul_hg`, `add_hg`. -/
def libraTwo (fu : F) (v : Nat → F) : F := v 1 * v 0 * fu + v 2 * fu + v 2 * v 0

/-- libra/src/sumcheck.rs:14-18 `SumCheckProof`. -/
structure PlainProof (F : Type) where
  polys : List (List F)
  values : List F

/-- The first elements of the folded tables (`f_vec[0]`, …). -/
def heads (ts : List (List F)) : Option (List F) := ts.mapM fun t => t[0]?

/-- libra/src/sumcheck.rs:21-97 `phase_one_prover`. -/
def phaseOneProver (ch : Oracle F G) (f mul add1 add2 : List F) (bitSize : Nat) (claim : F) :
    Vf F G (PlainProof F × List F) := do
  ensure .panic (f.length = mul.length ∧ f.length = add1.length ∧ f.length = add2.length ∧ f.length = 2 ^ bitSize)
  let (polys, ru, ts) ← plainRounds ch "poly" (quadRound libraOne) foldTables bitSize claim [f, mul, add1, add2]
  let values ← orPanic (heads ts)
  say (.frs "claim_final" values)
  pure (⟨polys, values⟩, ru)

/-- libra/src/sumcheck.rs:99-173 `phase_two_prover`. -/
def phaseTwoProver (ch : Oracle F G) (f mul add : List F) (fu : F) (bitSize : Nat) (claim : F) :
    Vf F G (PlainProof F × List F) := do
  ensure .panic (f.length = mul.length ∧ f.length = add.length ∧ f.length = 2 ^ bitSize)
  let (polys, rv, ts) ← plainRounds ch "poly" (quadRound (libraTwo fu)) foldTables bitSize claim [f, mul, add]
  let values ← orPanic (heads ts)
  say (.frs "claim_final" values)
  pure (⟨polys, values⟩, rv)

/-! ### Spartan with hiding -/

/-- spartan/src/prover.rs:477: tables `poly_eq`, `poly_a`, `poly_b`, `poly_c`. -/
def spartanOne (v : Nat → F) : F := v 0 * (v 1 * v 2 - v 3)

/-- spartan/src/prover.rs:637: tables `poly_z`, `poly_abc`. -/
def spartanTwo (v : Nat → F) : F := v 0 * v 1

/-- The random values of one round: `blinds_poly[i]`, `blinds_evals[i]` (spartan/src/prover.rs:445-450, 608-613)
and `d_vec`, `r_delta`, `r_beta` of `sum_check_eval_prover` (789-800). -/
structure RoundRand (F : Type) where
  blindPoly : F
  blindEval : F
  d : List F
  rDelta : F
  rBeta : F

/-- spartan/src/prover.rs:725-827 `sum_check_eval_prover`; libra/src/sumcheck.rs:439-522. -/
def scEvalProver (ch : Oracle F G) (gen1 genN : MultiParams G) (poly : List F) (polyCommit : G)
    (claim blindClaim eval : F) (size : Nat) (r : F) (rand : RoundRand F) : Vf F G (ScEvalProof F G) := do
  let w0 ← challenge ch "combine_two_claims_to_one"
  let w1 ← challenge ch "combine_two_claims_to_one"
  ensure .panic (poly.length ≤ size)
  let polynomial := poly ++ List.replicate (size - poly.length) 0
  let claimValue := w0 * claim + w1 * eval
  let blind := w0 * blindClaim + w1 * rand.blindEval
  let coeffs := evalCoeffs w0 w1 r size
  say (.pt "Cx" polyCommit)
  say (.pt "Cy" (commitVec gen1.generators [claimValue] gen1.h blind))
  let dCommit := commitVec genN.generators rand.d genN.h rand.rDelta
  say (.pt "delta" dCommit)
  let dotCd := (List.zipWith (· * ·) coeffs rand.d).sum
  let dotCdCommit := commitVec gen1.generators [dotCd] gen1.h rand.rBeta
  say (.pt "beta" dotCdCommit)
  let c ← challenge ch "c"
  pure ⟨dCommit, dotCdCommit, List.zipWith (fun p d => c * p + d) polynomial rand.d,
    c * rand.blindPoly + rand.rDelta, c * blind + rand.rBeta⟩

/-- spartan/src/prover.rs:473-578 and 634-712: the loop of a prover that commits to its round polynomials;
one entry of the list per round. The results are the commitments and proofs, the challenges, the folded
tables, the final claim and the blinding factor of its commitment. -/
def hidingRounds (ch : Oracle F G) (gen1 genN : MultiParams G) (size : Nat)
    (round : List (List F) → F → Option (List F)) :
    List (RoundRand F) → F → F → List (List F) → Vf F G (ScProof F G × List F × List (List F) × F × F)
  | [], claim, blindClaim, ts => pure (⟨[], [], []⟩, [], ts, claim, blindClaim)
  | rand :: rands, claim, blindClaim, ts => do
    let poly ← orPanic (round ts claim)
    let commitPoly := commitVec genN.generators poly genN.h rand.blindPoly
    say (.pt "comm_poly" commitPoly)
    let r ← challenge ch "challenge_nextround"
    let ts' ← orPanic (foldTables ts r)
    say (.pt "comm_claim_per_round" (commitVec gen1.generators [claim] gen1.h blindClaim))
    let eval := polyEval poly r
    let commitEval := commitVec gen1.generators [eval] gen1.h rand.blindEval
    say (.pt "comm_eval" commitEval)
    let proof ← scEvalProver ch gen1 genN poly commitPoly claim blindClaim eval size r rand
    let (p, rs, final, claim', blind') ← hidingRounds ch gen1 genN size round rands eval rand.blindEval ts'
    pure (⟨commitPoly :: p.commPolys, commitEval :: p.commEvals, proof :: p.proofs⟩, r :: rs, final, claim', blind')

/-- spartan/src/prover.rs:422-592 `sum_check_proof_phase_one`; the values are those of `poly_a`, `poly_b`,
`poly_c`, `poly_eq`. The first blinding factor of the claim is zero; `blind_poly_eval` is zero if there
are no rounds. -/
def phaseOne (ch : Oracle F G) (params : SatParams G) (claim : F) (a b c eq : List F) (rands : List (RoundRand F)) :
    Vf F G (ScProof F G × List F × (F × F × F × F) × F) := do
  ensure .panic (a.length = b.length ∧ b.length = c.length ∧ c.length = eq.length)
  let (proof, rx, ts, _, blind) ←
    hidingRounds ch params.gen1 params.gen4 4 (cubicRound spartanOne) rands claim 0 [eq, a, b, c]
  match ts with
  | [[ve], [va], [vb], [vc]] => pure (proof, rx, (va, vb, vc, ve), blind)
  | _ => throw .panic

/-- spartan/src/prover.rs:594-723 `sum_check_proof_phase_two`; the values are those of `poly_abc` and
`poly_z`. There is at least one round, so the returned blinding factor is that of the last one. -/
def phaseTwo (ch : Oracle F G) (params : SatParams G) (claim blindClaim : F) (abc z : List F)
    (rands : List (RoundRand F)) : Vf F G (ScProof F G × List F × (F × F) × F) := do
  ensure .panic (abc.length = z.length ∧ z.length = 2 ^ rands.length)
  let (proof, ry, ts, _, blind) ←
    hidingRounds ch params.gen1 params.gen3 3 (quadRound spartanTwo) rands claim blindClaim [z, abc]
  let vz ← orPanic ((ts.getD 0 [])[0]?)
  let vabc ← orPanic ((ts.getD 1 [])[0]?)
  pure (proof, ry, (vabc, vz), if rands.isEmpty then 0 else blind)

/-! ### Spartan's batched product circuits -/

/-- The tables of `sum_check_cubic_prover` (spartan/src/prover.rs:1445-1450). -/
structure Batch (F : Type) where
  aPar : List (List F)
  bPar : List (List F)
  cPar : List F
  aSeq : List (List F)
  bSeq : List (List F)
  cSeq : List (List F)

/-- spartan/src/prover.rs:1472-1497, 1505-1529: `eval_0`, `eval_2`, `eval_3` of one triple of tables. -/
def tripleEvals (a b c : List F) : Option (F × F × F) :=
  if a.length = b.length ∧ a.length = c.length then
    let s := a.length / 2
    let at2 (t : List F) (i : Nat) := (t.getD (s + i) 0 + t.getD (s + i) 0) - t.getD i 0
    let at3 (t : List F) (i : Nat) :=
      (t.getD (s + i) 0 + t.getD (s + i) 0) + t.getD (s + i) 0 - (t.getD i 0 + t.getD i 0)
    some (((List.range s).map fun i => a.getD i 0 * b.getD i 0 * c.getD i 0).sum,
      ((List.range s).map fun i => at2 a i * at2 b i * at2 c i).sum,
      ((List.range s).map fun i => at3 a i * at3 b i * at3 c i).sum)
  else none

/-- spartan/src/prover.rs:1467-1554: the round polynomial of `sum_check_cubic_prover`. -/
def batchRound (coeffs : List F) (t : Batch F) (claim : F) : Option (List F) := do
  guard (t.aPar.length = t.bPar.length)
  let par ← (t.aPar.zip t.bPar).mapM fun x => tripleEvals x.1 x.2 t.cPar
  let seq ← ((t.aSeq.zip t.bSeq).zip t.cSeq).mapM fun x => tripleEvals x.1.1 x.1.2 x.2
  let evals := par ++ seq
  guard (coeffs.length = evals.length)
  let e0 := (List.zipWith (fun e c => e.1 * c) evals coeffs).sum
  let e1 := claim - e0
  let e2 := (List.zipWith (fun e c => e.2.1 * c) evals coeffs).sum
  let e3 := (List.zipWith (fun e c => e.2.2 * c) evals coeffs).sum
  return trim (← cubicCoeffs e0 e1 e2 e3)

/-- spartan/src/prover.rs:1561-1581: `combine_with_r` on all tables. -/
def foldBatch (t : Batch F) (r : F) : Option (Batch F) := do
  let cPar ← combineWithR t.cPar r
  let aPar ← foldTables t.aPar r
  let bPar ← foldTables t.bPar r
  let aSeq ← foldTables t.aSeq r
  let bSeq ← foldTables t.bSeq r
  let cSeq ← foldTables t.cSeq r
  return ⟨aPar, bPar, cPar, aSeq, bSeq, cSeq⟩

/-- spartan/src/prover.rs:1442-1607 `sum_check_cubic_prover`: the polynomials, the challenges and the final
values of `poly_a_par`, `poly_b_par`, `poly_c_par`, `poly_a_seq`, `poly_b_seq`, `poly_c_seq`. -/
def cubicProver (ch : Oracle F G) (numRounds : Nat) (claim : F) (t : Batch F) (coeffs : List F) :
    Vf F G (List (List F) × List F × (List F × List F × F) × (List F × List F × List F)) := do
  let (polys, rs, t') ← plainRounds ch "comm_poly" (batchRound coeffs) foldBatch numRounds claim t
  let aPar ← orPanic (heads t'.aPar)
  let bPar ← orPanic (heads t'.bPar)
  let cPar ← orPanic t'.cPar[0]?
  let aSeq ← orPanic (heads t'.aSeq)
  let bSeq ← orPanic (heads t'.bSeq)
  let cSeq ← orPanic (heads t'.cSeq)
  pure (polys, rs, (aPar, bPar, cPar), (aSeq, bSeq, cSeq))

end Zkp.Sc
