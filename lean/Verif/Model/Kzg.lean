/- Model of /repo/marlin/src/pc: kzg10.rs, mod.rs and data_structures.rs (polynomial commitments).

Groups are modules over the scalar field, the pairing is a bilinear map with the target group written
additively, polynomials are mathematical polynomials.  Random values are arguments: a blinding
polynomial drawn by `Rand::rand(d, rng)` is an argument of degree at most `d`. -/
import Verif.Model.Group
import Verif.Model.Poly
import Mathlib.LinearAlgebra.BilinearMap

namespace Zkp.Kzg

open Polynomial

variable {F : Type} [Field F] [DecidableEq F]
variable {G1 G2 GT : Type} [AddCommGroup G1] [AddCommGroup G2] [AddCommGroup GT]
  [Module F G1] [Module F G2] [Module F GT]

/-- data_structures.rs:11-22 `Error`, plus `panic` for failed assertions, index errors and arithmetic
underflow. -/
inductive PcError where
  | missingPolynomial
  | missingEvaluation
  | degreeIsZero
  | degreeOutOfBound
  | hidingBoundIsZero
  | hidingBoundTooLarge
  | missingRng
  | trimmingDegreeTooLarge
  | panic
deriving DecidableEq, Repr

/-- data_structures.rs:24-35 `UniversalParams` (the prepared forms are the same points). -/
structure UniversalParams (G1 G2 : Type) where
  powers_of_g : List G1
  powers_of_gamma_g : List G1
  h : G2
  beta_h : G2

/-- data_structures.rs:43-47 `Powers`. -/
structure Powers (G1 : Type) where
  powers_of_g : List G1
  powers_of_gamma_g : List G1

/-- data_structures.rs:59-65 `CommitterKey`. -/
structure CommitterKey (G1 : Type) where
  powers_of_g : List G1
  powers_of_gamma_g : List G1
  supported_degree : Nat

/-- data_structures.rs:102-109 `VerifierKey`. -/
structure VerifierKey (G1 G2 : Type) where
  g : G1
  gamma_g : G1
  h : G2
  beta_h : G2
  supported_degree : Nat

/-- data_structures.rs:300-304 `Proof`. -/
structure Proof (F G1 : Type) where
  w : G1
  rand_v : Option F

/-- kzg10.rs:27-72 `setup`; `β`, `g`, `γg`, `h` are the sampled values. -/
def setup (maxDegree : Nat) (β : F) (g γg : G1) (h : G2) : UniversalParams G1 G2 :=
  { powers_of_g := (List.range (maxDegree + 1)).map fun i => β ^ i • g
    powers_of_gamma_g := (List.range (maxDegree + 1)).map fun i => β ^ i • γg
    h := h
    beta_h := β • h }

/-- kzg10.rs:74-98 `trim`; the panics are the underflow of data_structures.rs:39 and the slice and index
errors of lines 82-86. -/
def trim (pp : UniversalParams G1 G2) (supportedDegree : Nat) :
    Except PcError (CommitterKey G1 × VerifierKey G1 G2) :=
  if pp.powers_of_g.length = 0 then .error .panic
  else if pp.powers_of_g.length - 1 < supportedDegree then .error .trimmingDegreeTooLarge
  else if pp.powers_of_gamma_g.length < supportedDegree + 1 then .error .panic
  else
    match pp.powers_of_g.take (supportedDegree + 1), pp.powers_of_gamma_g.take (supportedDegree + 1) with
    | g :: gs, γ :: γs => .ok (⟨g :: gs, γ :: γs, supportedDegree⟩, ⟨g, γ, pp.h, pp.beta_h, supportedDegree⟩)
    | _, _ => .error .panic

/-- kzg10.rs:175-183 `check_degree_is_within_bounds` (`degree()` is 0 for the zero polynomial). -/
def checkDegree (degree powers : Nat) : Except PcError Unit :=
  if degree < 1 then .error .degreeIsZero
  else if powers < degree then .error .degreeOutOfBound
  else .ok ()

/-- kzg10.rs:201-209 `check_hiding_bound`. -/
def checkHidingBound (hidingBound hidingPowers : Nat) : Except PcError Unit :=
  if hidingBound = 0 then .error .hidingBoundIsZero
  else if hidingPowers < hidingBound then .error .hidingBoundTooLarge
  else .ok ()

/-- kzg10.rs:185-194 `skip_leading_zeros_and_convert_to_bigints` followed by the multi-scalar product
with the powers from that position on (107-109, 135-140).  The loop condition indexes before it checks the
length, so the zero polynomial panics; so does a start behind the end of the powers. -/
noncomputable def msmSkip (powers : List G1) (p : F[X]) : Except PcError G1 :=
  let c := coeffs p
  let k := (c.takeWhile (· = 0)).length
  if k = c.length then .error .panic
  else if powers.length < k then .error .panic
  else .ok (msm (powers.drop k) (c.drop k))

/-- kzg10.rs:100-123 `commit`.  `blind` is the hiding bound together with the blinding polynomial that
is drawn for it. -/
noncomputable def commit (ck : Powers G1) (p : F[X]) (blind : Option (Nat × F[X])) :
    Except PcError (G1 × F[X]) :=
  if ck.powers_of_g.length = 0 then .error .panic
  else do
    checkDegree p.natDegree (ck.powers_of_g.length - 1)
    let comm ← msmSkip ck.powers_of_g p
    match blind with
    | none => .ok (comm, 0)
    | some (d, r) =>
      checkHidingBound d ck.powers_of_g.length
      .ok (comm + msm ck.powers_of_gamma_g (coeffs r), r)

open scoped Classical in
/-- kzg10.rs:125-156 `open` with 211-226 `compute_witness_polynomial`. -/
noncomputable def openAt (ck : Powers G1) (p : F[X]) (point : F) (rand : F[X]) :
    Except PcError (Proof F G1) := do
  checkDegree p.natDegree ck.powers_of_g.length
  let w ← msmSkip ck.powers_of_g (p / (X - C point))
  if rand = 0 then .ok ⟨w, none⟩
  else .ok ⟨w + msm ck.powers_of_gamma_g (coeffs (rand / (X - C point))), some (rand.eval point)⟩

/-- kzg10.rs:165-168: the commitment minus the claimed value and blinding. -/
def checkLhs (vk : VerifierKey G1 G2) (comm : G1) (value : F) (proof : Proof F G1) : G1 :=
  match proof.rand_v with
  | none => comm - value • vk.g
  | some ρ => comm - value • vk.g - ρ • vk.gamma_g

/-- kzg10.rs:158-173 `check`. -/
def check [DecidableEq GT] (e : G1 →ₗ[F] G2 →ₗ[F] GT) (vk : VerifierKey G1 G2) (comm : G1) (point value : F)
    (proof : Proof F G1) : Bool :=
  decide (e (checkLhs vk comm value proof) vk.h = e proof.w (vk.beta_h - point • vk.h))

/-! ### Labelled polynomials (mod.rs) -/

/-- data_structures.rs:218-224 `LabeledPolynomial`. -/
structure LabeledPolynomial (F : Type) [Field F] where
  label : String
  polynomial : F[X]
  degree_bound : Option Nat
  hiding_bound : Option Nat

/-- data_structures.rs:137-141 `Commitment`. -/
structure Commitment (G1 : Type) where
  comm : G1
  shifted_comm : Option G1

/-- data_structures.rs:265-270 `LabeledCommitment`. -/
structure LabeledCommitment (G1 : Type) where
  label : String
  commitment : Commitment G1
  degree_bound : Option Nat

/-- data_structures.rs:199-203 `Randomness`. -/
structure Randomness (F : Type) [Field F] where
  rand : F[X]
  shifted_rand : Option F[X]

/-- data_structures.rs:81-86 `powers`. -/
def CommitterKey.powers (ck : CommitterKey G1) : Powers G1 := ⟨ck.powers_of_g, ck.powers_of_gamma_g⟩

/-- data_structures.rs:88-99 `shifted_powers`; an out-of-range slice start panics. -/
def CommitterKey.shiftedPowers (ck : CommitterKey G1) (degreeBound : Nat) : Except PcError (Powers G1) :=
  if ck.supported_degree < degreeBound then .error .degreeOutOfBound
  else if ck.powers_of_g.length < ck.supported_degree - degreeBound then .error .panic
  else .ok ⟨ck.powers_of_g.drop (ck.supported_degree - degreeBound), ck.powers_of_gamma_g⟩

/-- mod.rs:50-59: the commitment to the shifted polynomial. -/
noncomputable def commitShifted (ck : CommitterKey G1) (p : LabeledPolynomial F) (drawn : F[X]) :
    Except PcError (Option (G1 × F[X])) :=
  match p.degree_bound with
  | none => .ok none
  | some d => do
    let powers ← ck.shiftedPowers d
    let r ← commit powers p.polynomial (p.hiding_bound.map fun b => (b, drawn))
    .ok (some r)

/-- mod.rs:42-69, one iteration: `drawn.1` is the blinding polynomial drawn for the commitment,
`drawn.2` the one for the shifted commitment. -/
noncomputable def commitOne (ck : CommitterKey G1) (p : LabeledPolynomial F) (drawn : F[X] × F[X]) :
    Except PcError (LabeledCommitment G1 × Randomness F) := do
  let c ← commit ck.powers p.polynomial (p.hiding_bound.map fun b => (b, drawn.1))
  let s ← commitShifted ck p drawn.2
  .ok (⟨p.label, ⟨c.1, s.map (·.1)⟩, p.degree_bound⟩, ⟨c.2, s.map (·.2)⟩)

/-- mod.rs:34-71 `commit`. -/
noncomputable def pcCommit (ck : CommitterKey G1) (ps : List (LabeledPolynomial F × F[X] × F[X])) :
    Except PcError (List (LabeledCommitment G1 × Randomness F)) :=
  ps.mapM fun p => commitOne ck p.1 p.2

/-- mod.rs:242-250 `shift_polynomial`. -/
noncomputable def shiftPolynomial (p : F[X]) (shift : Nat) : F[X] := X ^ shift * p

/-- mod.rs:85-98, one iteration on the state (polynomial, blinding, challenge).  The panics are the
`unwrap` of line 90 and the underflow of line 93. -/
noncomputable def openStep (supportedDegree : Nat) (ξ : F) (s : F[X] × F[X] × F)
    (pr : LabeledPolynomial F × Randomness F) : Except PcError (F[X] × F[X] × F) :=
  let p := s.1 + C s.2.2 * pr.1.polynomial
  let r := s.2.1 + C s.2.2 * pr.2.rand
  match pr.1.degree_bound with
  | none => .ok (p, r, s.2.2 * ξ ^ 2)
  | some d => match pr.2.shifted_rand with
    | none => .error .panic
    | some sr =>
      if supportedDegree < d then .error .panic
      else .ok (p + C (s.2.2 * ξ) * shiftPolynomial pr.1.polynomial (supportedDegree - d),
        r + C (s.2.2 * ξ) * sr, s.2.2 * ξ ^ 2)

/-- mod.rs:73-100 `open`. -/
noncomputable def pcOpen (ck : CommitterKey G1) (ps : List (LabeledPolynomial F)) (point ξ : F)
    (rands : List (Randomness F)) : Except PcError (Proof F G1) := do
  let s ← (ps.zip rands).foldlM (openStep ck.supported_degree ξ) (0, 0, 1)
  openAt ck.powers s.1 point s.2.1

/-- mod.rs:215-238, one iteration on the state (commitment, value, challenge).  The panics are the
assertion of line 218 and the underflow of line 230. -/
def accStep (supportedDegree : Nat) (point ξ : F) (s : G1 × F × F) (cv : LabeledCommitment G1 × F) :
    Except PcError (G1 × F × F) :=
  let comm := s.1 + s.2.2 • cv.1.commitment.comm
  let value := s.2.1 + cv.2 * s.2.2
  match cv.1.degree_bound, cv.1.commitment.shifted_comm with
  | none, none => .ok (comm, value, s.2.2 * ξ ^ 2)
  | some d, some sc =>
    if supportedDegree < d then .error .panic
    else .ok (comm + (s.2.2 * ξ) • sc, value + point ^ (supportedDegree - d) * cv.2 * (s.2.2 * ξ),
      s.2.2 * ξ ^ 2)
  | _, _ => .error .panic

/-- mod.rs:204-240 `accumulate_commitments_and_values`. -/
def accumulate (supportedDegree : Nat) (cs : List (LabeledCommitment G1)) (point : F) (values : List F)
    (ξ : F) : Except PcError (G1 × F × F) :=
  (cs.zip values).foldlM (accStep supportedDegree point ξ) (0, 0, 1)

/-- mod.rs:102-119 `check`. -/
def pcCheck [DecidableEq GT] (e : G1 →ₗ[F] G2 →ₗ[F] GT) (vk : VerifierKey G1 G2)
    (cs : List (LabeledCommitment G1)) (point : F) (values : List F) (proof : Proof F G1) (ξ : F) :
    Except PcError Bool := do
  let s ← accumulate vk.supported_degree cs point values ξ
  .ok (check e vk s.1 point s.2.1 proof)

/-- mod.rs:135-139, 172-176: the query set grouped by point.  The code uses ordered maps; here the points
and the labels of a point are in the order of their first occurrence, the same for prover and verifier. -/
def groups (querySet : List (String × F)) : List (F × List String) :=
  (querySet.map (·.2)).dedup.map fun z => (z, ((querySet.filter (·.2 = z)).map (·.1)).dedup)

/-- A map collected from labelled items keeps the last item of a label (mod.rs:129-133, 179). -/
def lookupLast {α : Type} (label : α → String) (l : List α) (x : String) : Option α :=
  l.reverse.find? fun a => label a = x

/-- `ok_or(MissingPolynomial)?` and `ok_or(MissingEvaluation)?`. marlin/src/pc/mod.rs:150-153, 185-194. -/
def orMissing {α : Type} (err : PcError) : Option α → Except PcError α
  | some a => .ok a
  | none => .error err

/-- mod.rs:143-158, one iteration. -/
noncomputable def openGroup (ck : CommitterKey G1) (prs : List (LabeledPolynomial F × Randomness F)) (ξ : F)
    (grp : F × List String) : Except PcError (Proof F G1) := do
  let sel ← grp.2.mapM fun l => orMissing .missingPolynomial (lookupLast (fun pr => pr.1.label) prs l)
  pcOpen ck (sel.map (·.1)) grp.1 ξ (sel.map (·.2))

/-- mod.rs:122-160 `batch_open`. -/
noncomputable def batchOpen (ck : CommitterKey G1) (ps : List (LabeledPolynomial F))
    (querySet : List (String × F)) (ξ : F) (rands : List (Randomness F)) :
    Except PcError (List (Proof F G1)) :=
  (groups querySet).mapM (openGroup ck (ps.zip rands) ξ)

/-- mod.rs:181-199, one iteration; `values` is the evaluation map. -/
def checkGroup [DecidableEq GT] (e : G1 →ₗ[F] G2 →ₗ[F] GT) (vk : VerifierKey G1 G2)
    (cs : List (LabeledCommitment G1)) (values : String → F → Option F) (ξ : F)
    (gp : (F × List String) × Proof F G1) : Except PcError Bool := do
  let sel ← gp.1.2.mapM fun l => do
    let c ← orMissing .missingPolynomial (lookupLast LabeledCommitment.label cs l)
    let v ← orMissing .missingEvaluation (values l gp.1.1)
    .ok (c, v)
  pcCheck e vk (sel.map (·.1)) gp.1.1 (sel.map (·.2)) gp.2 ξ

/-- mod.rs:163-202 `batch_check`, with the assertion of line 177. -/
def batchCheck [DecidableEq GT] (e : G1 →ₗ[F] G2 →ₗ[F] GT) (vk : VerifierKey G1 G2)
    (cs : List (LabeledCommitment G1)) (querySet : List (String × F)) (values : String → F → Option F)
    (proofs : List (Proof F G1)) (ξ : F) : Except PcError Bool :=
  if (groups querySet).length ≠ proofs.length then .error .panic
  else do
    let bs ← ((groups querySet).zip proofs).mapM (checkGroup e vk cs values ξ)
    .ok (bs.all id)

end Zkp.Kzg
