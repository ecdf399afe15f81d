/- Model of Plonk: /repo/plonk/src/lib.rs, /repo/plonk/src/utils.rs and /repo/plonk/src/ahp/.

The external `GeneralEvaluationDomain::new` is the parameter `mk`, the polynomial commitment scheme (external
crate `ark_poly_commit`, a type parameter of the Rust code too) is the parameter `pc`, the Fiat-Shamir
generator (rng.rs) is a parameter: an arbitrary stream of field elements for each list of absorbed
messages. -/
import Verif.Model.PlonkComposer
import Verif.Model.Poly

namespace Zkp.Plonk

open Polynomial

variable {F : Type} [Field F] [DecidableEq F]

/-- error.rs, ahp/mod.rs:116-121 `Error`, and panics. -/
inductive Err where
  | synthesis
  | missingEvaluation (label : String)
  | circuitTooLarge
  | pc
  | panic
deriving DecidableEq, Repr

/-- `?` on a composer result; a panic stays a panic. plonk/src/error.rs:16-20. -/
def liftCs {α : Type} : Except CsError α → Except Err α
  | .ok a => .ok a
  | .error .panic => .error .panic
  | .error .polynomialDegreeTooLarge => .error .synthesis

/-- `x.unwrap()`. For instance plonk/src/utils.rs:48, plonk/src/lib.rs:101. -/
def unwrap {α : Type} : Option α → Except Err α
  | some a => .ok a
  | none => .error .panic

/-- `x.inverse().unwrap()`. plonk/src/utils.rs:48, plonk/src/ahp/indexer/mod.rs:225, permutation.rs:99. -/
def invOrPanic (x : F) : Except Err F := if x = 0 then .error .panic else .ok x⁻¹

/-! ### utils.rs -/

/-- `EvaluationsOnDomain::from_vec_and_domain(v, D).interpolate()`.
plonk/src/ahp/indexer/mod.rs:166-207, plonk/src/utils.rs:42. -/
noncomputable def interpolate (D : Domain F) (v : List F) : F[X] := polyOf (D.ifft v)

/-- `domain_4n.coset_fft(&poly)`. -/
noncomputable def onCoset (D : Domain F) (p : F[X]) : List F := D.cosetFft (coeffs p)

/-- utils.rs:26-32 `vanishing_poly`. -/
noncomputable def vanishingPoly (D : Domain F) : F[X] :=
  polyOf (((List.replicate (D.size + 1) (0 : F)).set 0 (-1)).set D.size 1)

/-- utils.rs:39-43 `first_lagrange_poly`. -/
noncomputable def firstLagrangePoly (D : Domain F) : F[X] :=
  interpolate D ((List.replicate D.size (0 : F)).set 0 1)

/-- utils.rs:45-50 `evaluate_first_lagrange_poly`. -/
def evaluateFirstLagrange (D : Domain F) (ζ : F) : Except Err F := do
  let d ← invOrPanic ((D.size : F) * (ζ - 1))
  .ok ((ζ ^ D.size - 1) * d)

/-- utils.rs:52-59 `pad_to_size`; the subtraction underflows if the vector is longer. -/
def padToSize (v : List F) (n : Nat) : Except Err (List F) :=
  if n < v.length then .error .panic else .ok (v ++ List.replicate (n - v.length) 0)

/-! ### The index -/

/-- A selector or permutation polynomial with its values on the domain and on the coset of the large
domain, as in ahp/indexer/arithmetic.rs:11-19 and ahp/indexer/permutation.rs:12-18. -/
structure KeyPoly (F : Type) [Field F] where
  poly : F[X]
  evals : List F
  coset : List F

/-- ahp/indexer/mod.rs:164-221: polynomial and evaluations for one vector. -/
noncomputable def keyPoly (D D4 : Domain F) (v : List F) : KeyPoly F :=
  ⟨interpolate D v, v, onCoset D4 (interpolate D v)⟩

/-- ahp/indexer/mod.rs:30-34 `IndexInfo`. -/
structure IndexInfo (F : Type) where
  n : Nat
  ks : Fin 4 → F
  domain_n : Domain F

/-- ahp/indexer/mod.rs:19-27 `Index`, with ahp/indexer/arithmetic.rs:11-19 `ArithmeticKey` and
ahp/indexer/permutation.rs:12-18 `PermutationKey` inlined. -/
structure Index (F : Type) [Field F] where
  info : IndexInfo F
  q_0 : KeyPoly F
  q_1 : KeyPoly F
  q_2 : KeyPoly F
  q_3 : KeyPoly F
  q_m : KeyPoly F
  q_c : KeyPoly F
  q_arith : KeyPoly F
  sigma_0 : KeyPoly F
  sigma_1 : KeyPoly F
  sigma_2 : KeyPoly F
  sigma_3 : KeyPoly F
  l1_4n : List F
  domain_4n : Domain F
  v_4n_inversed : List F

/-- ahp/indexer/mod.rs:138-257 `index`.  (The assertion at line 142 holds: all vectors have length `n`.) -/
noncomputable def index (mk : Nat → Option (Domain F)) (order : List (List Wire) → List (List Wire))
    (cs : Composer F) (ks : Fin 4 → F) : Except Err (Index F) := do
  let s ← liftCs (cs.compose mk order ks)
  let D ← liftCs (domain mk s.n)
  let D4 ← liftCs (domain mk (4 * s.n))
  let vi ← (onCoset D4 (vanishingPoly D)).mapM invOrPanic
  .ok {
    info := ⟨s.n, ks, D⟩
    q_0 := keyPoly D D4 s.q_0
    q_1 := keyPoly D D4 s.q_1
    q_2 := keyPoly D D4 s.q_2
    q_3 := keyPoly D D4 s.q_3
    q_m := keyPoly D D4 s.q_m
    q_c := keyPoly D D4 s.q_c
    q_arith := keyPoly D D4 s.q_arith
    sigma_0 := keyPoly D D4 s.sigma_0
    sigma_1 := keyPoly D D4 s.sigma_1
    sigma_2 := keyPoly D D4 s.sigma_2
    sigma_3 := keyPoly D D4 s.sigma_3
    l1_4n := onCoset D4 (firstLagrangePoly D)
    domain_4n := D4
    v_4n_inversed := vi }

/-- ahp/indexer/mod.rs:260-262 `iter`: the index polynomials with their labels. -/
def Index.polys (i : Index F) : List (String × F[X]) :=
  [("q_0", i.q_0.poly), ("q_1", i.q_1.poly), ("q_2", i.q_2.poly), ("q_3", i.q_3.poly), ("q_m", i.q_m.poly),
    ("q_c", i.q_c.poly), ("q_arith", i.q_arith.poly), ("sigma_0", i.sigma_0.poly),
    ("sigma_1", i.sigma_1.poly), ("sigma_2", i.sigma_2.poly), ("sigma_3", i.sigma_3.poly)]

/-! ### Linear combinations -/

/-- `ark_poly_commit::LinearCombination`; constant terms are not used here.
Used at plonk/src/ahp/indexer/permutation.rs:58, arithmetic.rs:27. -/
structure LinComb (F : Type) where
  label : String
  terms : List (F × String)

/-- ahp/verifier.rs:20-31: the challenges. -/
structure Chals (F : Type) where
  beta : F
  gamma : F
  alpha : F
  zeta : F

/-- ahp/indexer/arithmetic.rs:22-38 `construct_linear_combination`, the terms. -/
def arithTerms (w0 w1 w2 w3 qArith : F) : List (F × String) :=
  [(qArith * w0, "q_0"), (qArith * w1, "q_1"), (qArith * w2, "q_2"), (qArith * w3, "q_3"),
    (qArith * w1 * w2, "q_m"), (qArith, "q_c")]

/-- ahp/indexer/permutation.rs:32-65 `construct_linear_combination`, the terms. -/
def permTerms (D : Domain F) (ks : Fin 4 → F) (w0 w1 w2 w3 zShifted s0 s1 s2 : F) (c : Chals F) :
    Except Err (List (F × String)) := do
  let numerator := (w0 + ks 0 * c.beta * c.zeta + c.gamma) * (w1 + ks 1 * c.beta * c.zeta + c.gamma)
    * (w2 + ks 2 * c.beta * c.zeta + c.gamma) * (w3 + ks 3 * c.beta * c.zeta + c.gamma)
  let denumerator := (w0 + c.beta * s0 + c.gamma) * (w1 + c.beta * s1 + c.gamma)
    * (w2 + c.beta * s2 + c.gamma) * c.beta * zShifted
  let l1 ← evaluateFirstLagrange D c.zeta
  .ok [(numerator * c.alpha + l1 * c.alpha ^ 2, "z"), (-denumerator * c.alpha, "sigma_3")]

/-- `LinearCombination::new(l, vec![(F::one(), l)])`. plonk/src/ahp/mod.rs:40-41. -/
def single (l : String) : LinComb F := ⟨l, [(1, l)]⟩

/-- ahp/mod.rs:47-61: the combination `t`. -/
def tComb (n : Nat) (ζ : F) : LinComb F :=
  ⟨"t", [(1, "t_0"), (ζ ^ n, "t_1"), ((ζ ^ n) ^ 2, "t_2"), (ζ ^ n * (ζ ^ n) ^ 2, "t_3")]⟩

/-- ahp/mod.rs:29-113 `construct_linear_combinations`; `ev` is the `EvaluationsProvider`.  The result is
sorted by label (line 109). -/
def linearCombinations (info : IndexInfo F) (c : Chals F) (ev : LinComb F → F → Except Err F) :
    Except Err (List (LinComb F)) := do
  let w0 ← ev (single "w_0") c.zeta
  let w1 ← ev (single "w_1") c.zeta
  let w2 ← ev (single "w_2") c.zeta
  let w3 ← ev (single "w_3") c.zeta
  let zs ← ev (single "z") (c.zeta * info.domain_n.element 1)
  let s0 ← ev (single "sigma_0") c.zeta
  let s1 ← ev (single "sigma_1") c.zeta
  let s2 ← ev (single "sigma_2") c.zeta
  let qa ← ev (single "q_arith") c.zeta
  let perm ← permTerms info.domain_n info.ks w0 w1 w2 w3 zs s0 s1 s2 c
  .ok [single "q_arith", ⟨"r", arithTerms w0 w1 w2 w3 qa ++ perm⟩, single "sigma_0", single "sigma_1",
    single "sigma_2", tComb info.n c.zeta, single "w_0", single "w_1", single "w_2", single "w_3", single "z"]

/-- ahp/evaluations.rs:27-44: one term added to the accumulator. -/
noncomputable def addTerm (polys : List (String × F[X])) (acc : F[X]) (t : F × String) : Except Err F[X] :=
  match polys.find? (·.1 = t.2) with
  | some p => .ok (acc + C t.1 * p.2)
  | none => .error (.missingEvaluation t.2)

/-- ahp/evaluations.rs:24-49: evaluation of a combination of polynomials. -/
noncomputable def evalPolys (polys : List (String × F[X])) (lc : LinComb F) (x : F) : Except Err F := do
  let p ← lc.terms.foldlM (addTerm polys) 0
  .ok (p.eval x)

/-- ahp/evaluations.rs:15-22 and ahp/verifier.rs:153-158 `get_eval`: look up a given evaluation. -/
def getEval (ev : String → F → Option F) (label : String) (x : F) : Except Err F :=
  match ev label x with
  | some v => .ok v
  | none => .error (.missingEvaluation label)

/-- ahp/verifier.rs:77-99 `verifier_query_set`, in the order of the `BTreeSet` (by label), which is also the
order of the evaluations (lib.rs:181, 237). -/
def querySet (D : Domain F) (ζ : F) : List (String × F) :=
  [("q_arith", ζ), ("r", ζ), ("sigma_0", ζ), ("sigma_1", ζ), ("sigma_2", ζ), ("t", ζ), ("w_0", ζ), ("w_1", ζ),
    ("w_2", ζ), ("w_3", ζ), ("z", ζ * D.element 1)]

/-! ### The commitment scheme and the random generator -/

/-- `ark_poly_commit::PolynomialCommitment`, as far as it is used: keys are given by the supported degree.
No polynomial of Plonk has a hiding or degree bound (utils.rs:61-63), so committing is deterministic. -/
structure PC (F : Type) [Field F] where
  Comm : Type
  Opening : Type
  commit : Nat → F[X] → Comm
  openCombinations : Nat → List (LinComb F) → List (String × F[X]) → List (String × F) → F → Opening
  checkCombinations : Nat → List (LinComb F) → List (String × Comm) → List (String × F) →
    (String → F → Option F) → Opening → F → Except Unit Bool

/-- What is absorbed by the Fiat-Shamir generator (lib.rs:100-122, 184, 212-228), in order. -/
inductive FsMsg (F Comm : Type) where
  | seed (publicInputs : List F)
  | comms (cs : List Comm)
  | evals (es : List F)

/-- rng.rs: for every history of absorbed messages a stream of field elements. -/
abbrev FsRng (F Comm : Type) := List (FsMsg F Comm) → Nat → F

/-! ### Keys -/

/-- data_structures.rs:21-27 `VerifierKey`; `degree` stands for the verifier key of the commitment scheme. -/
structure VerifierKey (F : Type) [Field F] (pc : PC F) where
  comms : List pc.Comm
  labels : List String
  degree : Nat
  info : IndexInfo F

/-- data_structures.rs:14-19 `ProverKey`. -/
structure ProverKey (F : Type) [Field F] (pc : PC F) where
  vk : VerifierKey F pc
  index : Index F

/-- lib.rs:62-91 `keygen`; the structured reference string supports degree `maxDegree`. -/
noncomputable def keygen (mk : Nat → Option (Domain F)) (order : List (List Wire) → List (List Wire))
    (pc : PC F) (maxDegree : Nat) (cs : Composer F) (ks : Fin 4 → F) :
    Except Err (ProverKey F pc × VerifierKey F pc) := do
  let i ← index mk order cs ks
  if maxDegree < i.info.n then .error .circuitTooLarge
  else
    let vk : VerifierKey F pc := ⟨i.polys.map fun p => pc.commit i.info.n p.2, i.polys.map (·.1), i.info.n, i.info⟩
    .ok (⟨vk, i⟩, vk)

/-! ### The prover -/

/-- ahp/indexer/permutation.rs:88-103: the quotient of the products at row `i`. -/
def permRatio (i : Index F) (roots w0 w1 w2 w3 : List F) (β γ : F) (k : Nat) : Except Err F := do
  let num : F → F → F → F := fun w root c => w + c * β * root + γ
  let den : F → F → F := fun w s => w + β * s + γ
  let n := num (w0.getD k 0) (roots.getD k 0) (i.info.ks 0) * num (w1.getD k 0) (roots.getD k 0) (i.info.ks 1)
    * num (w2.getD k 0) (roots.getD k 0) (i.info.ks 2) * num (w3.getD k 0) (roots.getD k 0) (i.info.ks 3)
  let d ← invOrPanic (den (w0.getD k 0) (i.sigma_0.evals.getD k 0) * den (w1.getD k 0) (i.sigma_1.evals.getD k 0)
    * den (w2.getD k 0) (i.sigma_2.evals.getD k 0) * den (w3.getD k 0) (i.sigma_3.evals.getD k 0))
  .ok (n * d)

/-- ahp/indexer/permutation.rs:105-111: the running product, starting with one; the last factor is left
out. -/
def runningProduct (acc : F) : List F → List F
  | [] => []
  | [_] => [acc]
  | p :: ps => acc :: runningProduct (acc * p) ps

/-- ahp/indexer/permutation.rs:67-118 `compute_z`, with the assertion of line 112. -/
def computeZ (i : Index F) (w0 w1 w2 w3 : List F) (β γ : F) : Except Err (List F) := do
  let D := i.info.domain_n
  let roots := (List.range D.size).map D.element
  let perms ← (List.range D.size).mapM (permRatio i roots w0 w1 w2 w3 β γ)
  let z := runningProduct 1 perms
  if z.getD (D.size - 1) 0 * perms.getD (D.size - 1) 0 = 1 then .ok z else .error .panic

/-- ahp/indexer/arithmetic.rs:90-116 `evaluate`. -/
def arithEvaluate (w0 w1 w2 w3 q0 q1 q2 q3 qm qc qArith pi : F) : F :=
  if qArith = 0 then 0 else (q0 * w0 + q1 * w1 + q2 * w2 + q3 * w3 + qm * w1 * w2 + qc + pi) * qArith

/-- ahp/indexer/arithmetic.rs:53-87 `compute_quotient`, entry `k`. -/
def arithQuotient (i : Index F) (w0 w1 w2 w3 pi : List F) (k : Nat) : F :=
  arithEvaluate (w0.getD k 0) (w1.getD k 0) (w2.getD k 0) (w3.getD k 0) (i.q_0.coset.getD k 0)
    (i.q_1.coset.getD k 0) (i.q_2.coset.getD k 0) (i.q_3.coset.getD k 0) (i.q_m.coset.getD k 0)
    (i.q_c.coset.getD k 0) (i.q_arith.coset.getD k 0) (pi.getD k 0)

/-- ahp/indexer/permutation.rs:150-154: the index of the coset element times the generator of the small
domain. -/
def nextIndex (size k : Nat) : Nat := if k / 4 = size / 4 - 1 then k % 4 else k + 4

/-- ahp/indexer/permutation.rs:121-169 `compute_quotient`, entry `k`; `linear` are the coset elements. -/
def permQuotient (i : Index F) (linear w0 w1 w2 w3 z : List F) (β γ α : F) (k : Nat) : F :=
  let num : F → F → F → F := fun w root c => w + c * β * root + γ
  let den : F → F → F := fun w s => w + β * s + γ
  (num (w0.getD k 0) (linear.getD k 0) (i.info.ks 0) * num (w1.getD k 0) (linear.getD k 0) (i.info.ks 1)
      * num (w2.getD k 0) (linear.getD k 0) (i.info.ks 2) * num (w3.getD k 0) (linear.getD k 0) (i.info.ks 3)
      * z.getD k 0
    - den (w0.getD k 0) (i.sigma_0.coset.getD k 0) * den (w1.getD k 0) (i.sigma_1.coset.getD k 0)
      * den (w2.getD k 0) (i.sigma_2.coset.getD k 0) * den (w3.getD k 0) (i.sigma_3.coset.getD k 0)
      * z.getD (nextIndex i.domain_4n.size k) 0) * α
    + (z.getD k 0 - 1) * i.l1_4n.getD k 0 * α ^ 2

/-- ahp/prover.rs:218-251 `quad_split`: chunks of `n` coefficients; what lies beyond four chunks is
dropped. -/
noncomputable def quadSplit (n : Nat) (cs : List F) : F[X] × F[X] × F[X] × F[X] :=
  (polyOf (cs.take n), polyOf ((cs.drop n).take n), polyOf ((cs.drop (2 * n)).take n),
    polyOf ((cs.drop (3 * n)).take n))

/-- ahp/prover.rs:184-204: the coefficients of the quotient polynomial. -/
noncomputable def quotient (i : Index F) (pi : List F) (w0 w1 w2 w3 z : F[X]) (β γ α : F) : List F :=
  let D4 := i.domain_4n
  let lin := D4.cosetFft [0, 1]
  let p := onCoset D4 (interpolate i.info.domain_n pi)
  D4.cosetIfft ((List.range D4.size).map fun k =>
    (arithQuotient i (onCoset D4 w0) (onCoset D4 w1) (onCoset D4 w2) (onCoset D4 w3) p k
      + permQuotient i lin (onCoset D4 w0) (onCoset D4 w1) (onCoset D4 w2) (onCoset D4 w3) (onCoset D4 z) β γ α k)
      * i.v_4n_inversed.getD k 0)

/-- ahp/prover.rs:97-133 and 135-165: the polynomials of the first two rounds, from the witness. -/
noncomputable def witnessPolys (i : Index F) (w : Witnesses F) : List (String × F[X]) :=
  let D := i.info.domain_n
  [("w_0", interpolate D w.w_0), ("w_1", interpolate D w.w_1), ("w_2", interpolate D w.w_2),
    ("w_3", interpolate D w.w_3)]

/-- ahp/prover.rs:206-213: the polynomials of the third round. -/
noncomputable def quotientPolys (n : Nat) (t : List F) : List (String × F[X]) :=
  let q := quadSplit n t
  [("t_0", q.1), ("t_1", q.2.1), ("t_2", q.2.2.1), ("t_3", q.2.2.2)]

/-- data_structures.rs:40-45 `Proof`. -/
structure Proof (F : Type) [Field F] (pc : PC F) where
  commitments : List (List pc.Comm)
  evaluations : List F
  pc_proof : pc.Opening

/-- lib.rs:171-183: the evaluation for one query. -/
noncomputable def evalQuery (lcs : List (LinComb F)) (polys : List (String × F[X])) (q : String × F) :
    Except Err F :=
  match lcs.find? (·.label = q.1) with
  | some lc => evalPolys polys lc q.2
  | none => .error (.missingEvaluation q.1)

/-- lib.rs:162-203: evaluations and opening, when all polynomials and challenges are known. -/
noncomputable def finish (pc : PC F) (rng : FsRng F pc.Comm) (pk : ProverKey F pc)
    (hist : List (FsMsg F pc.Comm)) (c1 c2 c3 : List pc.Comm) (polys : List (String × F[X])) (c : Chals F) :
    Except Err (Proof F pc) := do
  let qs := querySet pk.vk.info.domain_n c.zeta
  let lcs ← linearCombinations pk.vk.info c (evalPolys polys)
  let evals ← qs.mapM (evalQuery lcs polys)
  let ε := rng (hist ++ [.evals evals]) 0
  .ok ⟨[c1, c2, c3], evals, pc.openCombinations pk.vk.degree lcs polys qs ε⟩

/-- lib.rs:93-204 `prove`. -/
noncomputable def prove (mk : Nat → Option (Domain F)) (pc : PC F) (rng : FsRng F pc.Comm)
    (pk : ProverKey F pc) (cs : Composer F) : Except Err (Proof F pc) := do
  let i := pk.index
  let D := i.info.domain_n
  let commit : List (String × F[X]) → List pc.Comm := fun ps => ps.map fun p => pc.commit pk.vk.degree p.2
  let pi ← padToSize cs.pi D.size
  let w ← liftCs (cs.synthesize mk)
  let ps1 := witnessPolys i w
  let h1 := [.seed cs.pi, .comms (commit ps1)]
  let β := rng h1 0
  let γ := rng h1 1
  let z ← computeZ i w.w_0 w.w_1 w.w_2 w.w_3 β γ
  let ps2 := [("z", interpolate D z)]
  let h2 := h1 ++ [.comms (commit ps2)]
  let α := rng h2 0
  let t := quotient i pi (interpolate D w.w_0) (interpolate D w.w_1) (interpolate D w.w_2) (interpolate D w.w_3)
    (interpolate D z) β γ α
  let ps3 := quotientPolys D.size t
  let h3 := h2 ++ [.comms (commit ps3)]
  finish pc rng pk h3 (commit ps1) (commit ps2) (commit ps3) (i.polys ++ ps1 ++ ps2 ++ ps3) ⟨β, γ, α, rng h3 0⟩

/-! ### The verifier -/

/-- lib.rs:231-244: the evaluation map. -/
def evalMap (qs : List (String × F)) (evals : List F) (label : String) (x : F) : Option F :=
  ((qs.zip evals).find? fun t => t.1 = (label, x)).map (·.2)

/-- ahp/verifier.rs:139-150: the final equation. -/
def finalCheck (D : Domain F) (c : Chals F) (piζ l1 w0 w1 w2 w3 zs s0 s1 s2 qa t r : F) : Bool :=
  decide (t * (c.zeta ^ D.size - 1) = r + qa * piζ
    - zs * (w0 + c.beta * s0 + c.gamma) * (w1 + c.beta * s1 + c.gamma) * (w2 + c.beta * s2 + c.gamma)
      * (w3 + c.gamma) * c.alpha - l1 * c.alpha ^ 2)

/-- ahp/verifier.rs:101-151 `verifier_equality_check`. -/
noncomputable def equalityCheck (D : Domain F) (c : Chals F) (ev : String → F → Option F)
    (publicInputs : List F) : Except Err Bool := do
  let pi ← padToSize publicInputs D.size
  let w0 ← getEval ev "w_0" c.zeta
  let w1 ← getEval ev "w_1" c.zeta
  let w2 ← getEval ev "w_2" c.zeta
  let w3 ← getEval ev "w_3" c.zeta
  let zs ← getEval ev "z" (c.zeta * D.element 1)
  let s0 ← getEval ev "sigma_0" c.zeta
  let s1 ← getEval ev "sigma_1" c.zeta
  let s2 ← getEval ev "sigma_2" c.zeta
  let qa ← getEval ev "q_arith" c.zeta
  let t ← getEval ev "t" c.zeta
  let r ← getEval ev "r" c.zeta
  let l1 ← evaluateFirstLagrange D c.zeta
  .ok (finalCheck D c ((interpolate D pi).eval c.zeta) l1 w0 w1 w2 w3 zs s0 s1 s2 qa t r)

/-- ahp/mod.rs:26-27 `LABELS`. -/
def proverLabels : List String := ["w_0", "w_1", "w_2", "w_3", "z", "t_0", "t_1", "t_2", "t_3"]

/-- lib.rs:212-225 and ahp/verifier.rs:45-75: the challenges of the three rounds. -/
def challenges (pc : PC F) (rng : FsRng F pc.Comm) (publicInputs : List F) (c1 c2 c3 : List pc.Comm) : Chals F :=
  let h1 := [.seed publicInputs, .comms c1]
  let h2 := h1 ++ [.comms c2]
  let h3 := h2 ++ [.comms c3]
  ⟨rng h1 0, rng h1 1, rng h2 0, rng h3 0⟩

/-- lib.rs:251-267: the commitments with their labels; the `zip` truncates. -/
def labelComms (pc : PC F) (vk : VerifierKey F pc) (c1 c2 c3 : List pc.Comm) : List (String × pc.Comm) :=
  ((vk.comms ++ c1 ++ c2 ++ c3).zip (vk.labels ++ proverLabels)).map fun t => (t.2, t.1)

/-- `x.map_err(Error::from_pc_err)?`. plonk/src/lib.rs:58-121, plonk/src/error.rs:22-26. -/
def liftPc {α : Type} : Except Unit α → Except Err α
  | .ok a => .ok a
  | .error _ => .error .pc

/-- lib.rs:206-289, after the three commitment vectors have been read. -/
noncomputable def verifyWith (pc : PC F) (rng : FsRng F pc.Comm) (vk : VerifierKey F pc) (publicInputs : List F)
    (c1 c2 c3 : List pc.Comm) (proof : Proof F pc) : Except Err Bool := do
  let c := challenges pc rng publicInputs c1 c2 c3
  let ε := rng [.seed publicInputs, .comms c1, .comms c2, .comms c3, .evals proof.evaluations] 0
  let qs := querySet vk.info.domain_n c.zeta
  let ev := evalMap qs proof.evaluations
  let ok ← equalityCheck vk.info.domain_n c ev publicInputs
  if ok then do
    let lcs ← linearCombinations vk.info c (fun lc x => getEval ev lc.label x)
    liftPc (pc.checkCombinations vk.degree lcs (labelComms pc vk c1 c2 c3) qs ev proof.pc_proof ε)
  else .ok false

/-- lib.rs:206-290 `verify`; indexing `proof.commitments` panics with fewer than three vectors, more are
ignored. -/
noncomputable def verify (pc : PC F) (rng : FsRng F pc.Comm) (vk : VerifierKey F pc) (publicInputs : List F)
    (proof : Proof F pc) : Except Err Bool :=
  match proof.commitments with
  | c1 :: c2 :: c3 :: _ => verifyWith pc rng vk publicInputs c1 c2 c3 proof
  | _ => .error .panic

end Zkp.Plonk
