/- Model of Marlin's prover: /repo/marlin/src/ahp/prover.rs and `create_random_proof` in
/repo/marlin/src/lib.rs.

A `DensePolynomial` is an element of `F[X]`; its vector of coefficients has no trailing zero, so its length
is `plen`.  `evaluate_over_domain_by_ref` and `fft` are evaluation at every domain element, for polynomials
that are not longer than the domain. -/
import Verif.Model.Marlin

namespace Zkp.Marlin

open Polynomial

variable {F : Type} [Field F] [DecidableEq F]
variable {G1 G2 GT : Type} [AddCommGroup G1] [AddCommGroup G2] [AddCommGroup GT]
  [Module F G1] [Module F G2] [Module F GT]

open scoped Classical in
/-- `p.coeffs.len()` (external, used at prover.rs:285-287). -/
noncomputable def plen (p : F[X]) : Nat := if p = 0 then 0 else p.natDegree + 1

/-- The polynomial of the first `n` coefficients, for the `zip`s of prover.rs:249-252 and 279-281. -/
noncomputable def cut (n : Nat) (p : F[X]) : F[X] := ∑ j ∈ Finset.range n, C (p.coeff j) * X ^ j

/-- What the prover draws from `zk_rng` (prover.rs:190, 196, 200, 203; lib.rs:110, 118, 125): the constants
`DensePolynomial::rand(zk_bound - 1)` for `w`, `z_a` and `z_b`, the masking polynomial, and for every
polynomial the blinding polynomials of its commitment and of its shifted commitment. -/
structure Coins (F : Type) [Field F] where
  w : F
  za : F
  zb : F
  mask : F[X]
  hide : String → F[X] × F[X]

/-- prover.rs:20-40 `ProverState`, after `prover_init`. -/
structure PState (F : Type) where
  inputs : List F
  witness : List F
  za : List F
  zb : List F
  X : Domain F
  H : Domain F
  K : Domain F

/-- prover.rs:112-119, one iteration of `inner_product`; an index behind the witness panics. -/
def innerStep (inputs witness : List F) (acc : F) (t : F × Nat) : Except Err F :=
  match (if t.2 < inputs.length then inputs[t.2]? else witness[t.2 - inputs.length]?) with
  | some v => .ok (acc + if t.1 = 1 then v else v * t.1)
  | none => .error .panic

/-- prover.rs:110-121 `inner_product`. -/
def innerProduct (inputs witness : List F) (row : List (F × Nat)) : Except Err F :=
  row.foldlM (innerStep inputs witness) 0

/-- prover.rs:86-147 `prover_init`, after synthesis. -/
def proverInit (mk : Nat → Option (Domain F)) (d : IndexData F) (cs : CS F) : Except Err (PState F) :=
  let s := proverSquare cs
  if d.info.num_constraints ≠ s.2.2 ∨ d.info.num_constraints ≠ s.1.length + s.2.1.length then
    .error .instanceDoesNotMatchIndex
  else do
    let za ← d.a.mapM (innerProduct s.1 s.2.1)
    let zb ← d.b.mapM (innerProduct s.1 s.2.1)
    let X ← domain mk s.1.length
    let H ← domain mk s.2.2
    let K ← domain mk d.info.num_non_zeros
    .ok ⟨s.1, s.2.1, za, zb, X, H, K⟩

/-- prover.rs:48-53 `ProverFirstOracles`. -/
structure FirstOracles (F : Type) [Field F] where
  w : F[X]
  za : F[X]
  zb : F[X]
  mask : F[X]

open scoped Classical in
/-- prover.rs:203-205: the masking polynomial with the constant term of its remainder taken away.  Reading
the constant term panics if the remainder is zero. -/
noncomputable def maskPoly (H : Domain F) (mask : F[X]) : Except Err F[X] :=
  if mask % (X ^ H.size - 1) = 0 then .error .panic
  else .ok (mask - C ((mask % (X ^ H.size - 1)).coeff 0))

/-- prover.rs:150-222 `prover_first_round`. -/
noncomputable def firstRound (s : PState F) (c : Coins F) : Except Err (FirstOracles F) := do
  let w ← wPoly s.H s.X s.inputs s.witness c.w
  let mask ← maskPoly s.H c.mask
  .ok ⟨w, interpolate s.H s.za + C c.za * (X ^ s.H.size - 1), interpolate s.H s.zb + C c.zb * (X ^ s.H.size - 1),
    mask⟩

/-- prover.rs:55-59 `iter`, with the labels and bounds of 207-210. -/
noncomputable def FirstOracles.polys (o : FirstOracles F) : List (Kzg.LabeledPolynomial F) :=
  [⟨"w", o.w, none, some 1⟩, ⟨"z_a", o.za, none, some 1⟩, ⟨"z_b", o.zb, none, some 1⟩, ⟨"mask", o.mask, none, none⟩]

/-- verifier.rs:26-32 `VerifierFirstMsg`. -/
structure FirstMsg (F : Type) where
  alpha : F
  eta_a : F
  eta_b : F
  eta_c : F

/-- verifier.rs:40-69 `verifier_first_round`, as called at lib.rs:112-114: the message and the domains of
the verifier's state. -/
noncomputable def verifierFirst (mk : Nat → Option (Domain F)) (rng : FsRng F G1 G2)
    (ivk : IndexVerifierKey F G1 G2) (pi : List F) (c1 : List (Kzg.Commitment G1)) :
    Except Err (Domain F × Domain F × FirstMsg F) :=
  let h1 := [.seed ivk pi, .comms c1]
  if ivk.info.num_constraints ≠ ivk.info.num_variables then .error .nonSquareMatrix
  else do
    let H ← domain mk ivk.info.num_constraints
    let K ← domain mk ivk.info.num_non_zeros
    match sampleOutside H (rng.draw h1) 0 with
    | none => .error .panic
    | some (α, k) => .ok (H, K, ⟨α, rng.draw h1 k, rng.draw h1 (k + 1), rng.draw h1 (k + 2)⟩)

/-- prover.rs:244-253: the combination `m` of `z_a`, `z_b` and their product.  The two `zip`s stop at the
shortest of the three coefficient vectors. -/
noncomputable def mPoly (m : FirstMsg F) (za zb : F[X]) : F[X] :=
  let n := min (plen (za * zb)) (min (plen za) (plen zb))
  C m.eta_c * (za * zb) + (C m.eta_a * cut n za + C m.eta_b * cut n zb)

/-- arithmetic.rs:28-34 `batch_evals`; the inversion leaves zeros alone. -/
def batchEvals (H : Domain F) (x : F) : List F :=
  (List.range H.size).map fun i => (x - H.ω ^ i)⁻¹ * H.vanishing x

/-- prover.rs:264-267, one iteration: `i` is the row, `e` the entry. -/
def tStep (H D : Domain F) (r : List F) (η : F) (i : Nat) (t : List F) (e : F × Nat) : Except Err (List F) := do
  let q ← reindexBySubdomain H.size D.size e.2
  if q < t.length ∧ i < r.length then .ok (t.set q (t.getD q 0 + η * e.1 * r.getD i 0)) else .error .panic

/-- prover.rs:263-268: the rows of one matrix from row `i` on. -/
def tRows (H D : Domain F) (r : List F) (η : F) : Nat → Matrix F → List F → Except Err (List F)
  | _, [], t => .ok t
  | i, row :: m, t => do
    let t ← row.foldlM (tStep H D r η i) t
    tRows H D r η (i + 1) m t

/-- prover.rs:259-269: the values of `t` on `H`. -/
def tEvals (H D : Domain F) (d : IndexData F) (m : FirstMsg F) (r : List F) : Except Err (List F) := do
  let t ← tRows H D r m.eta_a 0 d.a (List.replicate H.size 0)
  let t ← tRows H D r m.eta_b 0 d.b t
  tRows H D r m.eta_c 0 d.c t

/-- prover.rs:277-281: `z`; `mul_by_vanishing_poly` is external.  The `zip` stops at the end of the product. -/
noncomputable def zOf (D : Domain F) (w x : F[X]) : F[X] :=
  w * (X ^ D.size - 1) + cut (plen (w * (X ^ D.size - 1))) x

/-- prover.rs:61-65 `ProverSecondOracles`. -/
structure SecondOracles (F : Type) [Field F] where
  t : F[X]
  g1 : F[X]
  h1 : F[X]

/-- prover.rs:283-306: mask plus `r·m - t·z`, the latter computed on a domain that is large enough. -/
noncomputable def q1Poly (mk : Nat → Option (Domain F)) (mask r m t z : F[X]) : Except Err F[X] := do
  let E ← domain mk (max (plen mask) (max (plen r + plen m) (plen t + plen z)))
  .ok (mask + interpolate E ((List.range E.size).map fun i =>
    r.eval (E.ω ^ i) * m.eval (E.ω ^ i) - t.eval (E.ω ^ i) * z.eval (E.ω ^ i)))

open scoped Classical in
/-- prover.rs:230-321 `prover_second_round`.  The slice `coeffs[1..]` panics for the zero polynomial; the
degree bound underflows for a domain with one element. -/
noncomputable def secondRound (mk : Nat → Option (Domain F)) (d : IndexData F) (s : PState F)
    (o : FirstOracles F) (m : FirstMsg F) : Except Err (SecondOracles F) := do
  let r := batchEvals s.H m.alpha
  let D ← domain mk s.inputs.length
  let tv ← tEvals s.H D d m r
  let t := interpolate s.H tv
  let z := zOf D o.w (interpolate D s.inputs)
  let q ← q1Poly mk o.mask (interpolate s.H r) (mPoly m o.za o.zb) t z
  if q % (X ^ s.H.size - 1) = 0 ∨ s.H.size < 2 then .error .panic
  else .ok ⟨t, (q % (X ^ s.H.size - 1)).divX, q / (X ^ s.H.size - 1)⟩

/-- prover.rs:67-71 `iter`, with the labels and bounds of 309-318. -/
noncomputable def SecondOracles.polys (H : Domain F) (o : SecondOracles F) : List (Kzg.LabeledPolynomial F) :=
  [⟨"t", o.t, none, none⟩, ⟨"g_1", o.g1, some (H.size - 2), some 1⟩, ⟨"h_1", o.h1, none, none⟩]

/-- verifier.rs:71-79 `verifier_second_round`, as called at lib.rs:120-121. -/
noncomputable def verifierSecond (rng : FsRng F G1 G2) (H : Domain F) (ivk : IndexVerifierKey F G1 G2)
    (pi : List F) (c1 c2 : List (Kzg.Commitment G1)) : Except Err F :=
  match sampleOutside H (rng.draw [.seed ivk pi, .comms c1, .comms c2]) 0 with
  | none => .error .panic
  | some (β, _) => .ok β

/-- prover.rs:73-76 `ProverThirdOracles`. -/
structure ThirdOracles (F : Type) [Field F] where
  g2 : F[X]
  h2 : F[X]

/-- prover.rs:360-364: a denominator on `K`, from the values of row and column there
(`row_evals_on_k`, arithmetic.rs:139-140, are the values that `row` interpolates). -/
noncomputable def kDenom (K : Domain F) (α β : F) (m : MatrixPolys F) (i : Nat) : F :=
  (β - m.row.eval (K.ω ^ i)) * (α - m.col.eval (K.ω ^ i))

/-- prover.rs:357-375: the values on `K` of the polynomial whose sum is `t(β)`. -/
noncomputable def tOnK (K : Domain F) (vα vβ : F) (m : FirstMsg F) (β : F) (d : IndexData F) : List F :=
  (List.range K.size).map fun i =>
    (m.eta_a * d.a_star.val.eval (K.ω ^ i) * (kDenom K m.alpha β d.a_star i)⁻¹
      + m.eta_b * d.b_star.val.eval (K.ω ^ i) * (kDenom K m.alpha β d.b_star i)⁻¹
      + m.eta_c * d.c_star.val.eval (K.ω ^ i) * (kDenom K m.alpha β d.c_star i)⁻¹) * vα * vβ

/-- prover.rs:380-394: a denominator on `B`. -/
noncomputable def bDenom (B : Domain F) (α β : F) (m : MatrixPolys F) (i : Nat) : F :=
  β * α - α * m.row.eval (B.ω ^ i) - β * m.col.eval (B.ω ^ i) + m.row_col.eval (B.ω ^ i)

/-- prover.rs:399-406: the values of the numerator on `B`. -/
noncomputable def aOnB (B : Domain F) (vα vβ : F) (m : FirstMsg F) (β : F) (d : IndexData F) : List F :=
  (List.range B.size).map fun i =>
    (m.eta_a * d.a_star.val.eval (B.ω ^ i) * bDenom B m.alpha β d.b_star i * bDenom B m.alpha β d.c_star i
      + m.eta_b * d.b_star.val.eval (B.ω ^ i) * bDenom B m.alpha β d.c_star i * bDenom B m.alpha β d.a_star i
      + m.eta_c * d.c_star.val.eval (B.ω ^ i) * bDenom B m.alpha β d.a_star i * bDenom B m.alpha β d.b_star i)
        * vα * vβ

/-- prover.rs:409-411: the values of the denominator on `B`. -/
noncomputable def bOnB (B : Domain F) (m : FirstMsg F) (β : F) (d : IndexData F) : List F :=
  (List.range B.size).map fun i =>
    bDenom B m.alpha β d.a_star i * bDenom B m.alpha β d.b_star i * bDenom B m.alpha β d.c_star i

open scoped Classical in
/-- prover.rs:331-427 `prover_third_round`.  The slice `coeffs[1..]` panics for the zero polynomial, the
subtractions underflow for a domain with one element. -/
noncomputable def thirdRound (mk : Nat → Option (Domain F)) (d : IndexData F) (s : PState F) (m : FirstMsg F)
    (β : F) : Except Err (ThirdOracles F) := do
  let vα := s.H.vanishing m.alpha
  let vβ := s.H.vanishing β
  let t := interpolate s.K (tOnK s.K vα vβ m β d)
  let B ← domain mk (3 * s.K.size - 3)
  if t = 0 ∨ s.K.size < 2 then .error .panic
  else .ok ⟨t.divX, (interpolate B (aOnB B vα vβ m β d) - interpolate B (bOnB B m β d) * t) / (X ^ s.K.size - 1)⟩

/-- prover.rs:78-82 `iter`, with the labels and bounds of 418-426. -/
noncomputable def ThirdOracles.polys (K : Domain F) (o : ThirdOracles F) : List (Kzg.LabeledPolynomial F) :=
  [⟨"g_2", o.g2, some (K.size - 2), none⟩, ⟨"h_2", o.h2, none, none⟩]

/-- lib.rs:149-156, one iteration: the first polynomial with the label, at the point. -/
noncomputable def evalQuery (ps : List (Kzg.LabeledPolynomial F)) (q : String × F) : Except Err F :=
  match ps.find? fun p => p.label = q.1 with
  | some p => .ok (p.polynomial.eval q.2)
  | none => .error (.missingEval q.1)

/-- `PC::commit(&ipk.committer_key, oracles.iter(), Some(zk_rng))` at lib.rs:109-110, 117-118, 124-125. -/
noncomputable def commitAll (ck : Kzg.CommitterKey G1) (c : Coins F) (ps : List (Kzg.LabeledPolynomial F)) :
    Except Err (List (Kzg.LabeledCommitment G1 × Kzg.Randomness F)) :=
  liftPc (Kzg.pcCommit ck (ps.map fun p => (p, c.hide p.label)))

/-- lib.rs:129-180: evaluations, openings and the proof, once the polynomials and commitments of the three
rounds are there. -/
noncomputable def finish (rng : FsRng F G1 G2) (ipk : IndexProverKey F G1 G2) (pi : List F) (s : VState F)
    (ps : List (Kzg.LabeledPolynomial F)) (r1 r2 r3 : List (Kzg.LabeledCommitment G1 × Kzg.Randomness F)) :
    Except Err (Proof F G1) := do
  let c1 := r1.map (·.1.commitment)
  let c2 := r2.map (·.1.commitment)
  let c3 := r3.map (·.1.commitment)
  let evals ← (querySet s).mapM (evalQuery (ipk.index.polys ++ ps))
  let ξ := rng.opening [.seed ipk.index_verifier_key pi, .comms c1, .comms c2, .comms c3, .evals evals]
  let openings ← liftPc (Kzg.batchOpen ipk.committer_key (ipk.index.polys ++ ps) (querySet s) ξ
    (ipk.index_rands ++ r1.map (·.2) ++ r2.map (·.2) ++ r3.map (·.2)))
  .ok ⟨[c1, c2, c3], evals, openings⟩

/-- lib.rs:96-181 `create_random_proof`, after synthesis.  `formatted_input_assignment[1..]` (prover.rs:44)
is the tail of the inputs. -/
noncomputable def prove (mk : Nat → Option (Domain F)) (rng : FsRng F G1 G2) (ipk : IndexProverKey F G1 G2)
    (cs : CS F) (c : Coins F) : Except Err (Proof F G1) := do
  let s ← proverInit mk ipk.index cs
  let pi := s.inputs.tail
  let ivk := ipk.index_verifier_key
  let o1 ← firstRound s c
  let r1 ← commitAll ipk.committer_key c o1.polys
  let v ← verifierFirst mk rng ivk pi (r1.map (·.1.commitment))
  let o2 ← secondRound mk ipk.index s o1 v.2.2
  let r2 ← commitAll ipk.committer_key c (o2.polys s.H)
  let β ← verifierSecond rng v.1 ivk pi (r1.map (·.1.commitment)) (r2.map (·.1.commitment))
  let o3 ← thirdRound mk ipk.index s v.2.2 β
  let r3 ← commitAll ipk.committer_key c (o3.polys s.K)
  let γ := rng.draw [.seed ivk pi, .comms (r1.map (·.1.commitment)), .comms (r2.map (·.1.commitment)),
    .comms (r3.map (·.1.commitment))] 0
  finish rng ipk pi ⟨v.1, v.2.1, v.2.2.alpha, v.2.2.eta_a, v.2.2.eta_b, v.2.2.eta_c, β, γ⟩
    (o1.polys ++ o2.polys s.H ++ o3.polys s.K) r1 r2 r3

end Zkp.Marlin
