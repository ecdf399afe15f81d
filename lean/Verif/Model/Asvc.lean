/- Model of /repo/asvc/src/lib.rs (aggregatable subvector commitments).

Groups are modules over the scalar field, the pairing is a bilinear map with the target group written
additively.  `div` by zero panics in the code (`inverse().unwrap()` in `ark_ff`), modelled by
`SynthesisError.panic`.  Projective/affine conversions are the identity. -/
import Verif.Model.Cs
import Verif.Model.Domain
import Verif.Model.Group
import Verif.Model.Poly
import Mathlib.LinearAlgebra.BilinearMap

namespace Zkp.Asvc

open Polynomial

variable {F : Type} [Field F] [DecidableEq F]
variable {G1 G2 GT : Type} [AddCommGroup G1] [AddCommGroup G2] [AddCommGroup GT]
  [Module F G1] [Module F G2] [Module F GT]

/-- lib.rs:33-37 `UpdateKey`. -/
structure UpdateKey (G1 : Type) where
  ai : G1
  ui : G1

/-- lib.rs:39-44 `ProvingKey`. -/
structure ProvingKey (G1 : Type) where
  powers_of_g1 : List G1
  l_of_g1 : List G1
  update_keys : List (UpdateKey G1)

/-- lib.rs:46-51 `VerificationKey`. -/
structure VerificationKey (G1 G2 : Type) where
  powers_of_g1 : List G1
  powers_of_g2 : List G2
  a : G1

/-- lib.rs:53-57 `Parameters`. -/
structure Parameters (G1 G2 : Type) where
  pk : ProvingKey G1
  vk : VerificationKey G1 G2

/-- lib.rs:96-101: `curs` holds `1, τ, …, τ^max_degree`. -/
def powers (τ : F) (maxDegree : Nat) : List F := (List.range (maxDegree + 1)).map fun i => τ ^ i

/-- lib.rs:111: `a = powers_of_g1[max_degree] - g1`. -/
def keyA (τ : F) (n : Nat) (g1 : G1) : G1 := τ ^ n • g1 - g1

/-- lib.rs:116-121: `a_i = a^(1/(τ-ω^i))`. -/
def keyAi (τ : F) (D : Domain F) (g1 : G1) (i : Nat) : G1 :=
  (1 / (τ - D.ω ^ i)) • keyA τ D.size g1

/-- lib.rs:123-129: `l_i = a_i^(ω^i/n)`. -/
def keyLi (τ : F) (D : Domain F) (g1 : G1) (i : Nat) : G1 :=
  (D.ω ^ i / (D.size : F)) • keyAi τ D g1 i

/-- lib.rs:131-133: `u_i = (l_i - 1)^(1/(τ-ω^i))`. -/
def keyUi (τ : F) (D : Domain F) (g1 : G1) (i : Nat) : G1 :=
  (1 / (τ - D.ω ^ i)) • (keyLi τ D g1 i - g1)

/-- lib.rs:76-158 `key_gen`; `mkDomain` is `EvaluationDomain::new`, `τ`, `g1`, `g2` the sampled
values.  The division at line 118 panics when `τ` is a domain point, the one at line 126 when the
size is zero in the field. -/
def keyGen (mkDomain : Nat → Option (Domain F)) (n : Nat) (τ : F) (g1 : G1) (g2 : G2) :
    Except SynthesisError (Parameters G1 G2) :=
  match mkDomain n with
  | none => .error .polynomialDegreeTooLarge
  | some D =>
    if (List.range D.size).any (fun i => τ - D.ω ^ i = 0 || (D.size : F) = 0) then .error .panic
    else .ok {
      pk := {
        powers_of_g1 := (powers τ D.size).map fun x => x • g1
        l_of_g1 := (List.range D.size).map (keyLi τ D g1)
        update_keys := (List.range D.size).map fun i => ⟨keyAi τ D g1 i, keyUi τ D g1 i⟩ }
      vk := {
        powers_of_g1 := (powers τ D.size).map fun x => x • g1
        powers_of_g2 := (powers τ D.size).map fun x => x • g2
        a := keyA τ D.size g1 } }

/-- lib.rs:160-180 `commit`, with its two assertions. -/
def commit (pk : ProvingKey G1) (values : List F) : Except SynthesisError G1 :=
  if values.length < 1 then .error .panic
  else if pk.l_of_g1.length < values.length then .error .panic
  else .ok (msm pk.l_of_g1 values)

/-- The polynomial `x - ω^i` built at lib.rs:200-203, 241-244, 252-255, 416-419 and 425-428. -/
noncomputable def lin (ω : F) (i : Nat) : F[X] := X - C (ω ^ i)

/-- lib.rs:198-205, 239-246 and 414-421: the product of `x - ω^i` over the positions. -/
noncomputable def aPoly (ω : F) (points : List Nat) : F[X] :=
  points.foldl (fun p i => p * lin ω i) 1

/-- lib.rs:182-225 `prove_pos`.  Line 192 underflows when the key has no powers. -/
noncomputable def provePos (mkDomain : Nat → Option (Domain F)) (pk : ProvingKey G1)
    (values : List F) (points : List Nat) : Except SynthesisError G1 :=
  if pk.powers_of_g1.length = 0 then .error .panic
  else match mkDomain (pk.powers_of_g1.length - 1) with
    | none => .error .polynomialDegreeTooLarge
    | some D =>
      let polynomial := polyOf (D.ifft values)
      let witness := polynomial / aPoly D.ω points
      .ok (msm pk.powers_of_g1 (coeffs witness))

/-- One iteration of the loop lib.rs:250-268. -/
noncomputable def rStep (ω : F) (a : F[X]) (r : F[X]) (pv : Nat × F) : Except SynthesisError F[X] :=
  let l := a / lin ω pv.1
  let b := l.eval (ω ^ pv.1)
  if b = 0 then .error .panic else .ok (r + l * C (pv.2 / b))

/-- lib.rs:249-268: the interpolation polynomial of the claimed values; `zip` truncates. -/
noncomputable def rPoly (ω : F) (points : List Nat) (values : List F) : Except SynthesisError F[X] :=
  (points.zip values).foldlM (rStep ω (aPoly ω points)) 0

/-- lib.rs:227-285 `verify_pos`. -/
noncomputable def verifyPos [DecidableEq GT] (e : G1 →ₗ[F] G2 →ₗ[F] GT) (vk : VerificationKey G1 G2)
    (commit : G1) (values : List F) (points : List Nat) (w : G1) (ω : F) :
    Except SynthesisError Bool := do
  let r ← rPoly ω points values
  let inner := commit - msm vk.powers_of_g1 (coeffs r)
  match vk.powers_of_g2 with
  | [] => .error .panic
  | g2 :: _ =>
    let a := msm vk.powers_of_g2 (coeffs (aPoly ω points))
    .ok (decide (e inner g2 = e w a))

/-- lib.rs:287-337 `verify_upk`.  Line 296 underflows on an empty key, lines 302-306 index the first
two powers, line 323 divides by the size. -/
def verifyUpk [DecidableEq GT] (e : G1 →ₗ[F] G2 →ₗ[F] GT) (vk : VerificationKey G1 G2) (point : Nat)
    (upk : UpdateKey G1) (ω : F) : Except SynthesisError Bool :=
  match vk.powers_of_g1, vk.powers_of_g2 with
  | g1 :: _, g2 :: τ2 :: _ =>
    let n := vk.powers_of_g1.length - 1
    if (n : F) = 0 then .error .panic
    else
      let inner := τ2 - ω ^ point • g2
      let rs1 := decide (e upk.ai inner = e vk.a g2)
      let l := (ω ^ point / (n : F)) • upk.ai
      let rs2 := decide (e (l - g1) g2 = e upk.ui inner)
      .ok (rs1 && rs2)
  | _, _ => .error .panic

/-- lib.rs:339-363 `update_commit`. -/
def updateCommit (commit : G1) (δ : F) (point : Nat) (upk : UpdateKey G1) (ω : F) (n : Nat) :
    Except SynthesisError G1 :=
  if (n : F) = 0 then .error .panic
  else .ok (commit + δ • ((ω ^ point / (n : F)) • upk.ai))

/-- lib.rs:365-403 `update_proof`: the proof of position `i` after position `j` changed by `δ`. -/
def updateProof (w : G1) (δ : F) (i j : Nat) (upki upkj : UpdateKey G1) (ω : F) (n : Nat) :
    Except SynthesisError G1 :=
  if i = j then .ok (w + δ • upki.ui)
  else if ω ^ j - ω ^ i = 0 ∨ (n : F) = 0 then .error .panic
  else
    let c1 := 1 / (ω ^ j - ω ^ i)
    let c2 := 1 / (ω ^ i - ω ^ j)
    let wij := c1 • upkj.ai + c2 • upki.ai
    let uij := (ω ^ j / (n : F)) • wij
    .ok (w + δ • uij)

/-- One iteration of the loop lib.rs:424-432. -/
noncomputable def aggStep (ω : F) (a : F[X]) (acc : G1) (pw : Nat × G1) : Except SynthesisError G1 :=
  let b := (a / lin ω pw.1).eval (ω ^ pw.1)
  if b = 0 then .error .panic else .ok (acc + (1 / b) • pw.2)

/-- lib.rs:405-439 `aggregate_proofs`. -/
noncomputable def aggregateProofs (points : List Nat) (proofs : List G1) (ω : F) :
    Except SynthesisError G1 :=
  (points.zip proofs).foldlM (aggStep ω (aPoly ω points)) 0

end Zkp.Asvc
