/- Model of Marlin: /repo/marlin/src/lib.rs and /repo/marlin/src/ahp/{mod,indexer,arithmetic,verifier}.rs,
and the part of /repo/marlin/src/ahp/prover.rs that places the variables.

The external `GeneralEvaluationDomain::new` is the parameter `mk`, the Fiat-Shamir generator
(fs_rng.rs) is a parameter: an arbitrary stream of field elements for each list of absorbed messages. -/
import Verif.Model.MarlinCs
import Verif.Model.Kzg
import Verif.Model.Domain

namespace Zkp.Marlin

open Polynomial

variable {F : Type} [Field F] [DecidableEq F]
variable {G1 G2 GT : Type} [AddCommGroup G1] [AddCommGroup G2] [AddCommGroup GT]
  [Module F G1] [Module F G2] [Module F GT]

/-- ahp/mod.rs:15-21 `Error`, errors.rs, and panics. -/
inductive Err where
  | synthesis (e : SynthesisError)
  | nonSquareMatrix
  | instanceDoesNotMatchIndex
  | missingEval (label : String)
  | indexTooLarge
  | pc (e : Kzg.PcError)
  | panic
deriving DecidableEq, Repr

/-- `x.map_err(..)?` for the polynomial commitment scheme. marlin/src/errors.rs:20-24. -/
def liftPc {α : Type} : Except Kzg.PcError α → Except Err α
  | .ok a => .ok a
  | .error e => .error (.pc e)

/-- `x.map_err(..)?` for synthesis errors; a panic stays a panic. marlin/src/errors.rs:14-24. -/
def liftSyn {α : Type} : Except SynthesisError α → Except Err α
  | .ok a => .ok a
  | .error .panic => .error .panic
  | .error e => .error (.synthesis e)

/-- `EvaluationDomain::new(n).ok_or(PolynomialDegreeTooLarge)?`.
marlin/src/lib.rs:61-62, marlin/src/ahp/prover.rs:125-130. -/
def domain (mk : Nat → Option (Domain F)) (n : Nat) : Except Err (Domain F) :=
  match mk n with
  | some D => .ok D
  | none => .error (.synthesis .polynomialDegreeTooLarge)

/-! ### The indexer -/

/-- `ark_poly::EvaluationDomain::reindex_by_subdomain` (external, used at arithmetic.rs:115 and
prover.rs:265): an index below the size of the subdomain becomes the corresponding element of the
subdomain, any other index is moved behind the subdomain elements that precede it.  Panics if the
subdomain is larger or a division by zero occurs. -/
def reindexBySubdomain (hSize xSize index : Nat) : Except Err Nat :=
  if hSize < xSize ∨ xSize = 0 then .error .panic
  else if index < xSize then .ok (index * (hSize / xSize))
  else if hSize / xSize - 1 = 0 then .error .panic
  else .ok ((index - xSize) + (index - xSize) / (hSize / xSize - 1) + 1)

/-- arithmetic.rs:36-43 `diagonal_evals`, entry `j`: the elements times the size, all but the first
reversed. -/
def diagonal (H : Domain F) (j : Nat) : F := H.size * H.ω ^ (if j = 0 then 0 else H.size - j)

/-- arithmetic.rs:80-83: the polynomials of a matrix. The evaluations that are kept besides (87-94) are
derived from the same vectors. -/
structure MatrixPolys (F : Type) [Field F] where
  row : F[X]
  col : F[X]
  val : F[X]
  row_col : F[X]

/-- arithmetic.rs:114-126: one matrix entry `v` in row `i` and column `j`, as (row, col, val). -/
def composeEntry (H X : Domain F) (i : Nat) (e : F × Nat) : Except Err (F × F × F) := do
  let j ← reindexBySubdomain H.size X.size e.2
  if j < H.size ∧ i < H.size then
    .ok (H.ω ^ j, H.ω ^ i, e.1 * (diagonal H j)⁻¹)
  else .error .panic

/-- arithmetic.rs:113-122: all entries in order; `i` is the number of the first row. -/
def composeEntries (H X : Domain F) : Nat → Matrix F → Except Err (List (F × F × F))
  | _, [] => .ok []
  | i, row :: m => do
    let r ← row.mapM (composeEntry H X i)
    let rs ← composeEntries H X (i + 1) m
    .ok (r ++ rs)

/-- arithmetic.rs:128-133: padding to the size of `K`. -/
def padEntries (K : Domain F) (l : List (F × F × F)) : Except Err (List (F × F × F)) :=
  if K.size < l.length then .error .panic
  else .ok (l ++ List.replicate (K.size - l.length) (1, 1, 0))

/-- `EvaluationsOnDomain::from_vec_and_domain(v, K).interpolate()`.
marlin/src/ahp/arithmetic.rs:144-146, prover.rs:160-200. -/
noncomputable def interpolate (K : Domain F) (v : List F) : F[X] := polyOf (K.ifft v)

/-- arithmetic.rs:134-147: the interpolation polynomials. -/
noncomputable def matrixPolys (K : Domain F) (l : List (F × F × F)) : MatrixPolys F :=
  { row := interpolate K (l.map (·.1))
    col := interpolate K (l.map (·.2.1))
    val := interpolate K (l.map (·.2.2))
    row_col := interpolate K (l.map fun t => t.1 * t.2.1) }

/-- arithmetic.rs:97-172 `compose_matrix_polynomials`. -/
noncomputable def compose (X H K : Domain F) (m : Matrix F) : Except Err (MatrixPolys F) := do
  let l ← composeEntries H X 0 m
  let l ← padEntries K l
  .ok (matrixPolys K l)

/-- indexer.rs:12-17 `IndexInfo`. -/
structure IndexInfo where
  num_constraints : Nat
  num_variables : Nat
  num_non_zeros : Nat

/-- indexer.rs:28-39 `Index`. -/
structure IndexData (F : Type) [Field F] where
  info : IndexInfo
  a : Matrix F
  b : Matrix F
  c : Matrix F
  a_star : MatrixPolys F
  b_star : MatrixPolys F
  c_star : MatrixPolys F

/-- indexer.rs:71-116 `AHP::index` after synthesis.  The domain `B` (90-91) is only used for the
prover's evaluations, but has to exist. -/
noncomputable def ahpIndex (checked : Bool) (mk : Nat → Option (Domain F)) (cs : CS F) :
    Except Err (IndexData F) := do
  let s := (Ics.of cs).makeSquare
  let m ← liftSyn (s.process checked)
  let X ← domain mk s.numInputs
  let H ← domain mk (s.numInputs + s.numWitness)
  let K ← domain mk (numNonZeros m)
  if 3 * K.size < 3 then .error .panic
  else do
    let _ ← domain mk (3 * K.size - 3)
    let a ← compose X H K m.1
    let b ← compose X H K m.2.1
    let c ← compose X H K m.2.2
    .ok ⟨⟨s.c.length, s.numInputs + s.numWitness, numNonZeros m⟩, m.1, m.2.1, m.2.2, a, b, c⟩

/-- ahp/mod.rs:66-84 `max_degree` (`compute_size_of_domain` is the size of the domain). -/
def maxDegree (mk : Nat → Option (Domain F)) (info : IndexInfo) : Except Err Nat := do
  let H ← domain mk (max info.num_constraints info.num_variables)
  let K ← domain mk info.num_non_zeros
  .ok (max (3 * H.size + 2 * 1 - 1) (3 * K.size - 3))

/-- ahp/mod.rs:34-56 the labels of the polynomials, in the order of their commitments. -/
def indexLabels : List String :=
  ["a_row", "a_col", "a_val", "a_row_col", "b_row", "b_col", "b_val", "b_row_col",
    "c_row", "c_col", "c_val", "c_row_col"]

/-- ahp/mod.rs:51-56. -/
def proverLabels : List String := ["w", "z_a", "z_b", "mask", "t", "g_1", "h_1", "g_2", "h_2"]

/-- indexer.rs:51-66 `iter`, with the labels of arithmetic.rs:158-161. -/
noncomputable def IndexData.polys (d : IndexData F) : List (Kzg.LabeledPolynomial F) :=
  [⟨"a_row", d.a_star.row, none, none⟩, ⟨"a_col", d.a_star.col, none, none⟩,
    ⟨"a_val", d.a_star.val, none, none⟩, ⟨"a_row_col", d.a_star.row_col, none, none⟩,
    ⟨"b_row", d.b_star.row, none, none⟩, ⟨"b_col", d.b_star.col, none, none⟩,
    ⟨"b_val", d.b_star.val, none, none⟩, ⟨"b_row_col", d.b_star.row_col, none, none⟩,
    ⟨"c_row", d.c_star.row, none, none⟩, ⟨"c_col", d.c_star.col, none, none⟩,
    ⟨"c_val", d.c_star.val, none, none⟩, ⟨"c_row_col", d.c_star.row_col, none, none⟩]

/-- data_structures.rs:10-15 `IndexVerifierKey`. -/
structure IndexVerifierKey (F G1 G2 : Type) where
  info : IndexInfo
  index_comms : List (Kzg.Commitment G1)
  verifier_key : Kzg.VerifierKey G1 G2

/-- data_structures.rs:36-42 `IndexProverKey`. -/
structure IndexProverKey (F G1 G2 : Type) [Field F] where
  index : IndexData F
  index_rands : List (Kzg.Randomness F)
  index_verifier_key : IndexVerifierKey F G1 G2
  committer_key : Kzg.CommitterKey G1

/-- lib.rs:67-94 `index`.  No index polynomial is hiding, so no blinding is drawn. -/
noncomputable def index (checked : Bool) (mk : Nat → Option (Domain F)) (srs : Kzg.UniversalParams G1 G2)
    (cs : CS F) : Except Err (IndexProverKey F G1 G2 × IndexVerifierKey F G1 G2) := do
  let d ← ahpIndex checked mk cs
  let deg ← maxDegree mk d.info
  if srs.powers_of_g.length - 1 < deg then .error .indexTooLarge
  else do
    let keys ← liftPc (Kzg.trim srs deg)
    let crs ← liftPc (Kzg.pcCommit keys.1 (d.polys.map fun p => (p, 0, 0)))
    let ivk : IndexVerifierKey F G1 G2 := ⟨d.info, crs.map (·.1.commitment), keys.2⟩
    .ok (⟨d, crs.map (·.2), ivk, keys.1⟩, ivk)

/-! ### The prover's placement of the variables -/

/-- prover.rs:169-187: the values of `w` before the division, on `H`. The subtraction at 171-175
underflows if the witness does not fit beside the input domain; the index at 183 is in range. -/
def wEvals (H X : Domain F) (xEvals witness : List F) : Except Err (List F) :=
  if H.size < X.size + witness.length then .error .panic
  else
    let ratio := H.size / X.size
    .ok ((List.range H.size).map fun i =>
      if i % ratio = 0 then 0
      else (witness ++ List.replicate (H.size - X.size - witness.length) 0).getD (i - i / ratio - 1) 0
        - xEvals.getD i 0)

open scoped Classical in
/-- prover.rs:158-192: the polynomial `w`; `r` is the constant drawn for blinding (degree bound 0). -/
noncomputable def wPoly (H D : Domain F) (inputs witness : List F) (r : F) : Except Err F[X] := do
  let v ← wEvals H D (H.fft (D.ifft inputs)) witness
  let p := interpolate H v + C r * (X ^ H.size - 1)
  if p % (X ^ D.size - 1) = 0 then .ok (p / (X ^ D.size - 1)) else .error .panic

/-- prover.rs:272-281: the polynomial `z` that the prover uses, `w·v_X + x` (`zOf` says what happens for
`w = 0`). -/
noncomputable def zPoly (H D : Domain F) (inputs witness : List F) (r : F) : Except Err F[X] := do
  let w ← wPoly H D inputs witness r
  .ok (w * (X ^ D.size - 1) + interpolate D inputs)

/-! ### The verifier -/

/-- What is absorbed by the Fiat-Shamir generator (lib.rs:189-204), in order. -/
inductive FsMsg (F G1 G2 : Type) where
  | seed (ivk : IndexVerifierKey F G1 G2) (publicInput : List F)
  | comms (cs : List (Kzg.Commitment G1))
  | evals (es : List F)

/-- fs_rng.rs: for every history of absorbed messages a stream of field elements, and the 128-bit opening
challenge. -/
structure FsRng (F G1 G2 : Type) where
  draw : List (FsMsg F G1 G2) → Nat → F
  opening : List (FsMsg F G1 G2) → F

open scoped Classical in
/-- verifier.rs:117-126 `sample_element_outside_domain`: the first element from position `k` on that is
not in the domain, and the position after it; `none` if the loop does not end. -/
noncomputable def sampleOutside (H : Domain F) (stream : Nat → F) (k : Nat) : Option (F × Nat) :=
  if h : ∃ i, k ≤ i ∧ H.vanishing (stream i) ≠ 0 then some (stream (Nat.find h), Nat.find h + 1) else none

/-- verifier.rs:15-24 `VerifierState` with all challenges. -/
structure VState (F : Type) where
  H : Domain F
  K : Domain F
  alpha : F
  eta_a : F
  eta_b : F
  eta_c : F
  beta : F
  gamma : F

/-- lib.rs:191-201 with verifier.rs:40-87: the three rounds of challenges, each drawn after absorbing the
commitments of that round.  A sampling loop that does not end is reported as a panic. -/
noncomputable def challenges (mk : Nat → Option (Domain F)) (rng : FsRng F G1 G2)
    (ivk : IndexVerifierKey F G1 G2) (publicInput : List F) (c1 c2 c3 : List (Kzg.Commitment G1)) :
    Except Err (VState F) :=
  let h1 := [.seed ivk publicInput, .comms c1]
  let h2 := h1 ++ [.comms c2]
  let h3 := h2 ++ [.comms c3]
  if ivk.info.num_constraints ≠ ivk.info.num_variables then .error .nonSquareMatrix
  else do
    let H ← domain mk ivk.info.num_constraints
    let K ← domain mk ivk.info.num_non_zeros
    match sampleOutside H (rng.draw h1) 0 with
    | none => .error .panic
    | some (α, k) => match sampleOutside H (rng.draw h2) 0 with
      | none => .error .panic
      | some (β, _) =>
        .ok ⟨H, K, α, rng.draw h1 k, rng.draw h1 (k + 1), rng.draw h1 (k + 2), β, rng.draw h3 0⟩

/-- verifier.rs:89-115 `verifier_query_set`, in the order of the `BTreeSet` (by label). -/
def querySet (s : VState F) : List (String × F) :=
  [("a_col", s.gamma), ("a_row", s.gamma), ("a_row_col", s.gamma), ("a_val", s.gamma),
    ("b_col", s.gamma), ("b_row", s.gamma), ("b_row_col", s.gamma), ("b_val", s.gamma),
    ("c_col", s.gamma), ("c_row", s.gamma), ("c_row_col", s.gamma), ("c_val", s.gamma),
    ("g_1", s.beta), ("g_2", s.gamma), ("h_1", s.beta), ("h_2", s.gamma), ("mask", s.beta), ("t", s.beta),
    ("w", s.beta), ("z_a", s.beta), ("z_b", s.beta)]

/-- lib.rs:227-231: the evaluation map. -/
def evalMap (qs : List (String × F)) (evals : List F) (label : String) (point : F) : Option F :=
  ((qs.zip evals).find? fun t => t.1 = (label, point)).map (·.2)

/-- verifier.rs:212-218 `get_eval`. -/
def getEval (evals : String → F → Option F) (label : String) (point : F) : Except Err F :=
  match evals label point with
  | some v => .ok v
  | none => .error (.missingEval label)

/-- arithmetic.rs:19-26 `bivariate_eval`. -/
def bivariateEval (H : Domain F) (x y : F) : F :=
  if x ≠ y then (H.vanishing x - H.vanishing y) / (x - y) else H.size * x ^ (H.size - 1)

/-- verifier.rs:162-169: the outer sum-check equation. -/
def outerCheck (s : VState F) (vX xβ mask za zb w t h1 g1 : F) : Bool :=
  decide (mask + bivariateEval s.H s.alpha s.beta * (s.eta_a * za + s.eta_b * zb + s.eta_c * za * zb)
    - t * (vX * w + xβ) = h1 * s.H.vanishing s.beta + s.beta * g1)

/-- verifier.rs:184-185, 191-192, 198-199: a denominator. -/
def denom (s : VState F) (row col rowCol : F) : F :=
  s.alpha * s.beta - s.alpha * row - s.beta * col + rowCol

/-- verifier.rs:201-209: the inner sum-check equation; `da`, `db`, `dc` are the denominators. -/
def innerCheck (s : VState F) (h2 g2 t va vb vc da db dc : F) : Bool :=
  decide (h2 * s.K.vanishing s.gamma =
    (s.eta_a * va * db * dc + s.eta_b * vb * dc * da + s.eta_c * vc * da * db)
        * (s.H.vanishing s.alpha * s.H.vanishing s.beta)
      - da * db * dc * (s.gamma * g2 + t / s.K.size))

/-- verifier.rs:176-209: the second half of the check. -/
def innerRound (s : VState F) (ev : String → F → Option F) (t : F) : Except Err Bool := do
  let h2 ← getEval ev "h_2" s.gamma
  let g2 ← getEval ev "g_2" s.gamma
  let va ← getEval ev "a_val" s.gamma
  let ra ← getEval ev "a_row" s.gamma
  let ca ← getEval ev "a_col" s.gamma
  let rca ← getEval ev "a_row_col" s.gamma
  let vb ← getEval ev "b_val" s.gamma
  let rb ← getEval ev "b_row" s.gamma
  let cb ← getEval ev "b_col" s.gamma
  let rcb ← getEval ev "b_row_col" s.gamma
  let vc ← getEval ev "c_val" s.gamma
  let rc ← getEval ev "c_row" s.gamma
  let cc ← getEval ev "c_col" s.gamma
  let rcc ← getEval ev "c_row_col" s.gamma
  .ok (innerCheck s h2 g2 t va vb vc (denom s ra ca rca) (denom s rb cb rcb) (denom s rc cc rcc))

/-- verifier.rs:128-210 `verifier_equality_check`; constraint_systems.rs:220-224 prepends the one. -/
noncomputable def equalityCheck (mk : Nat → Option (Domain F)) (s : VState F) (publicInput : List F)
    (ev : String → F → Option F) : Except Err Bool := do
  let D ← domain mk (1 :: publicInput).length
  let mask ← getEval ev "mask" s.beta
  let za ← getEval ev "z_a" s.beta
  let zb ← getEval ev "z_b" s.beta
  let w ← getEval ev "w" s.beta
  let t ← getEval ev "t" s.beta
  let h1 ← getEval ev "h_1" s.beta
  let g1 ← getEval ev "g_1" s.beta
  if outerCheck s (D.vanishing s.beta) ((interpolate D (1 :: publicInput)).eval s.beta) mask za zb w t h1 g1
  then innerRound s ev t
  else .ok false

/-- data_structures.rs:44-49 `Proof`. -/
structure Proof (F G1 : Type) where
  commitments : List (List (Kzg.Commitment G1))
  evaluations : List F
  opening_proofs : List (Kzg.Proof F G1)

/-- prover.rs:224-228, 323-329, 429-435: the degree bounds of the prover's polynomials.  The subtractions
underflow for a domain with one element. -/
def degreeBounds (mk : Nat → Option (Domain F)) (info : IndexInfo) : Except Err (List (Option Nat)) :=
  match mk info.num_constraints, mk info.num_non_zeros with
  | some H, some K =>
    if H.size < 2 ∨ K.size < 2 then .error .panic
    else .ok [none, none, none, none, none, some (H.size - 2), none, some (K.size - 2), none]
  | _, _ => .error .panic

/-- lib.rs:207-225: the commitments with their labels and degree bounds. Both `zip`s truncate. -/
def labelCommitments (ivk : IndexVerifierKey F G1 G2) (c1 c2 c3 : List (Kzg.Commitment G1))
    (bounds : List (Option Nat)) : List (Kzg.LabeledCommitment G1) :=
  (((ivk.index_comms ++ c1 ++ c2 ++ c3).zip (indexLabels ++ proverLabels)).zip
    (List.replicate ivk.index_comms.length none ++ bounds)).map fun t => ⟨t.1.2, t.1.1, t.2⟩

/-- lib.rs:189-248, after the three commitment vectors have been read. -/
noncomputable def verifyWith [DecidableEq GT] (mk : Nat → Option (Domain F)) (rng : FsRng F G1 G2)
    (e : G1 →ₗ[F] G2 →ₗ[F] GT) (ivk : IndexVerifierKey F G1 G2) (c1 c2 c3 : List (Kzg.Commitment G1))
    (proof : Proof F G1) (publicInput : List F) : Except Err Bool := do
  let s ← challenges mk rng ivk publicInput c1 c2 c3
  let ξ := rng.opening [.seed ivk publicInput, .comms c1, .comms c2, .comms c3, .evals proof.evaluations]
  let bounds ← degreeBounds mk ivk.info
  let cs := labelCommitments ivk c1 c2 c3 bounds
  let ev := evalMap (querySet s) proof.evaluations
  let ok ← equalityCheck mk s publicInput ev
  if ok then liftPc (Kzg.batchCheck e ivk.verifier_key cs (querySet s) ev proof.opening_proofs ξ)
  else .ok false

/-- lib.rs:184-250 `verify_proof`; indexing `proof.commitments` panics with fewer than three vectors, more
are ignored. -/
noncomputable def verify [DecidableEq GT] (mk : Nat → Option (Domain F)) (rng : FsRng F G1 G2)
    (e : G1 →ₗ[F] G2 →ₗ[F] GT) (ivk : IndexVerifierKey F G1 G2) (proof : Proof F G1)
    (publicInput : List F) : Except Err Bool :=
  match proof.commitments with
  | c1 :: c2 :: c3 :: _ => verifyWith mk rng e ivk c1 c2 c3 proof publicInput
  | _ => .error .panic

end Zkp.Marlin
