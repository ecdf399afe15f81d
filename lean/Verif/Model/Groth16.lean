/- Model of /repo/groth16/src: r1cs_to_qap.rs, generator.rs, prover.rs, verifier.rs.

Groups are modules over the scalar field, the pairing is a bilinear map (target group written
additively); see DESIGN.md. -/
import Verif.Model.Cs
import Verif.Model.Domain
import Verif.Model.Group
import Mathlib.Algebra.Module.LinearMap.Basic
import Mathlib.LinearAlgebra.BilinearMap

namespace Zkp.Groth16

variable {F : Type} [Field F]

/-- r1cs_to_qap.rs:33-36, 84-87: position of a variable in the full assignment. -/
def pos (numInputs : Nat) : Index → Nat
  | .input i => i
  | .aux i => numInputs + i

/-- Whether every index in the constraints is in range (otherwise the Rust code panics with an index
error, modelled by `SynthesisError.panic` below). groth16/src/r1cs_to_qap.rs:34-35, 85-105. -/
def inRange (cs : CS F) : Bool :=
  cs.constraints.all fun k => (k.a ++ k.b ++ k.c).all fun t => match t.1 with
    | .input i => i < cs.inputs.length
    | .aux i => i < cs.aux.length

/-- r1cs_to_qap.rs:16-52 `evaluate_constraint` (the `is_one` branch is the same value). -/
def evaluateConstraint [DecidableEq F] (terms : LC F) (assignment : List F) (numInputs : Nat) : F :=
  terms.foldl (fun sum t => if t.2 = 1 then sum + assignment.getD (pos numInputs t.1) 0
    else sum + assignment.getD (pos numInputs t.1) 0 * t.2) 0

/-- `a[index] += &(u[i] * coeff)` (r1cs_to_qap.rs:89, 97, 105). -/
def addAt (l : List F) (k : Nat) (v : F) : List F := l.modify k (· + v)

/-- The inner loops r1cs_to_qap.rs:83-106 for one matrix: `u_i` times every coefficient of row `i`. -/
def addRow (numInputs : Nat) (acc : List F) (row : LC F × F) : List F :=
  row.1.foldl (fun acc t => addAt acc (pos numInputs t.1) (row.2 * t.2)) acc

/-- r1cs_to_qap.rs:82-107 for one matrix. -/
def addRows (numInputs : Nat) (acc : List F) (rows : List (LC F)) (u : List F) : List F :=
  (rows.zip u).foldl (addRow numInputs) acc

/-- The result of `instance_map_with_evaluation`. groth16/src/r1cs_to_qap.rs:58-109. -/
structure Qap (F : Type) where
  a : List F
  b : List F
  c : List F
  zt : F
  size : Nat

/-- r1cs_to_qap.rs:58-110 `instance_map_with_evaluation` on the assembly `cs`. -/
def instanceMap (D : Domain F) (cs : CS F) (t : F) : Qap F :=
  let u := D.lagrange t
  let n := cs.inputs.length + cs.aux.length
  let zeros : List F := List.replicate n 0
  let a0 := zeros.mapIdx fun i x =>
    if i < cs.inputs.length then u.getD (cs.constraints.length + i) 0 else x
  { a := addRows cs.inputs.length a0 (cs.constraints.map (·.a)) u
    b := addRows cs.inputs.length zeros (cs.constraints.map (·.b)) u
    c := addRows cs.inputs.length zeros (cs.constraints.map (·.c)) u
    zt := D.vanishing t
    size := D.size }

/-- The full assignment (r1cs_to_qap.rs:120-121). -/
def full (cs : CS F) : List F := cs.inputs ++ cs.aux

/-- r1cs_to_qap.rs:128-142: evaluations of the `A` polynomial on the domain. -/
def evalsA [DecidableEq F] (D : Domain F) (cs : CS F) : List F :=
  (List.range D.size).map fun i =>
    if i < cs.constraints.length then
      evaluateConstraint ((cs.constraints.map (·.a)).getD i []) (full cs) cs.inputs.length
    else if i < cs.constraints.length + cs.inputs.length then
      (full cs).getD (i - cs.constraints.length) 0
    else 0

/-- r1cs_to_qap.rs:128-138: evaluations of the `B` polynomial. -/
def evalsB [DecidableEq F] (D : Domain F) (cs : CS F) : List F :=
  (List.range D.size).map fun i =>
    if i < cs.constraints.length then
      evaluateConstraint ((cs.constraints.map (·.b)).getD i []) (full cs) cs.inputs.length
    else 0

/-- r1cs_to_qap.rs:154-159: evaluations of the `C` polynomial. -/
def evalsC [DecidableEq F] (D : Domain F) (cs : CS F) : List F :=
  (List.range D.size).map fun i =>
    if i < cs.constraints.length then
      evaluateConstraint ((cs.constraints.map (·.c)).getD i []) (full cs) cs.inputs.length
    else 0

/-- r1cs_to_qap.rs:113-172 `witness_map`: the coefficients of the quotient polynomial. -/
def witnessMap [DecidableEq F] (D : Domain F) (cs : CS F) : List F :=
  let a := D.cosetFft (D.ifft (evalsA D cs))
  let b := D.cosetFft (D.ifft (evalsB D cs))
  let ab := List.zipWith (· * ·) a b
  let c := D.cosetFft (D.ifft (evalsC D cs))
  let ab := List.zipWith (· - ·) ab c
  D.cosetIfft (D.divVanishingOnCoset ab)

/-! ### Keys and proofs -/

variable {G1 G2 GT : Type} [AddCommGroup G1] [AddCommGroup G2] [AddCommGroup GT]
  [Module F G1] [Module F G2] [Module F GT]

/-- lib.rs `VerifyKey`. -/
structure VerifyKey (G1 G2 : Type) where
  alpha_g1 : G1
  beta_g2 : G2
  gamma_g2 : G2
  delta_g2 : G2
  gamma_abc_g1 : List G1

/-- lib.rs `Parameters`. -/
structure Parameters (G1 G2 : Type) where
  vk : VerifyKey G1 G2
  beta_g1 : G1
  delta_g1 : G1
  a_query : List G1
  b_g1_query : List G1
  b_g2_query : List G2
  h_query : List G1
  l_query : List G1

/-- lib.rs `Proof`. -/
structure Proof (G1 G2 : Type) where
  a : G1
  b : G2
  c : G1

/-- lib.rs:95-102 `PreparedVerifyingKey`. -/
structure PreparedVerifyingKey (G1 G2 GT : Type) where
  vk : VerifyKey G1 G2
  alpha_g1_beta_g2 : GT
  gamma_g2_neg_pc : G2
  delta_g2_neg_pc : G2
  gamma_abc_g1 : List G1

/-- The scalars of generator.rs:189-199. -/
def combine (α β inv : F) (q : Qap F) : List F :=
  List.zipWith (fun ab c => (β * ab.1 + α * ab.2 + c) * inv) (q.a.zip q.b) q.c

/-- generator.rs:135-286 `generate_parameters` for the assembly `cs` left by the circuit (setup
mode).  `mkDomain` is `EvaluationDomain::new`; `t`, `g1`, `g2` are the sampled values (163-168, 201-202). -/
def generateParameters [DecidableEq F] (mkDomain : Nat → Option (Domain F)) (cs : CS F)
    (α β γ δ t : F) (g1 : G1) (g2 : G2) : Except SynthesisError (Parameters G1 G2) :=
  match mkDomain (cs.constraints.length + (cs.inputs.length - 1) + 1) with
  | none => .error .polynomialDegreeTooLarge
  | some D =>
    if inRange cs = false then .error .panic
    else if γ = 0 then .error .unexpectedIdentity
    else if δ = 0 then .error .unexpectedIdentity
    else
      let q := instanceMap D cs t
      let gamma_abc := (combine α β γ⁻¹ q).take cs.inputs.length
      let l := combine α β δ⁻¹ q
      .ok {
        vk := {
          alpha_g1 := α • g1
          beta_g2 := β • g2
          gamma_g2 := γ • g2
          delta_g2 := δ • g2
          gamma_abc_g1 := gamma_abc.map fun x => x • g1 }
        beta_g1 := β • g1
        delta_g1 := δ • g1
        a_query := q.a.map fun x => x • g1
        b_g1_query := q.b.map fun x => x • g1
        b_g2_query := q.b.map fun x => x • g2
        h_query := (List.range (q.size - 1)).map fun i => (q.zt * δ⁻¹ * t ^ i) • g1
        l_query := (l.map fun x => x • g1).drop cs.inputs.length }

/-- prover.rs:213-228 `calculate_coeff`; `none` is the index panic on an empty query. -/
def calculateCoeff {G : Type} [AddCommGroup G] [Module F G] (initial : G) (query : List G)
    (vkParam : G) (assignment : List F) : Option G :=
  match query with
  | [] => none
  | el :: rest => some (initial + el + msm rest assignment + vkParam)

/-- `Option::unwrap`-like panics. Index errors of groth16/src/r1cs_to_qap.rs:34-35, 85-105. -/
def orPanic {α : Type} : Option α → Except SynthesisError α
  | some a => .ok a
  | none => .error .panic

/-- prover.rs:124-211 `create_proof` for the assembly `cs` left by the circuit (proving mode). -/
def createProof [DecidableEq F] (mkDomain : Nat → Option (Domain F)) (pk : Parameters G1 G2)
    (cs : CS F) (r s : F) : Except SynthesisError (Proof G1 G2) :=
  match mkDomain (cs.constraints.length + cs.inputs.length) with
  | none => .error .polynomialDegreeTooLarge
  | some D =>
    if inRange cs = false then .error .panic
    else do
      let h := witnessMap D cs
      let assignment := cs.inputs.tail ++ cs.aux
      let ga ← orPanic (calculateCoeff (r • pk.delta_g1) pk.a_query pk.vk.alpha_g1 assignment)
      let g1b ← if r ≠ 0 then
          orPanic (calculateCoeff (s • pk.delta_g1) pk.b_g1_query pk.beta_g1 assignment)
        else .ok 0
      let g2b ← orPanic (calculateCoeff (s • pk.vk.delta_g2) pk.b_g2_query pk.vk.beta_g2 assignment)
      let hAcc := msm pk.h_query h
      let lAcc := msm pk.l_query cs.aux
      .ok ⟨ga, g2b, s • ga + r • g1b - s • (r • pk.delta_g1) + lAcc + hAcc⟩

/-- verifier.rs:8-16 `prepare_verifying_key`. -/
def prepareVerifyingKey (e : G1 →ₗ[F] G2 →ₗ[F] GT) (vk : VerifyKey G1 G2) :
    PreparedVerifyingKey G1 G2 GT :=
  ⟨vk, e vk.alpha_g1 vk.beta_g2, -vk.gamma_g2, -vk.delta_g2, vk.gamma_abc_g1⟩

/-- verifier.rs:18-44 `verify_proof`.  The product of Miller loops followed by the final
exponentiation is the sum of the pairings. -/
def verifyProof [DecidableEq GT] (e : G1 →ₗ[F] G2 →ₗ[F] GT) (pvk : PreparedVerifyingKey G1 G2 GT)
    (proof : Proof G1 G2) (publicInputs : List F) : Except SynthesisError Bool :=
  match pvk.gamma_abc_g1 with
  | [] => .error .malformedVerifyingKey
  | g0 :: rest =>
    if publicInputs.length + 1 ≠ (g0 :: rest).length then .error .malformedVerifyingKey
    else
      let gic := (publicInputs.zip rest).foldl (fun acc p => acc + p.1 • p.2) g0
      .ok (e proof.a proof.b + e gic pvk.gamma_g2_neg_pc + e proof.c pvk.delta_g2_neg_pc ==
        pvk.alpha_g1_beta_g2)

end Zkp.Groth16
