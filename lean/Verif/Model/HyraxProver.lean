/- Model of Hyrax's prover: /repo/hyrax/src/zk_sumcheck_proof.rs, hyrax_proof.rs. Random scalars are arguments;
vectors of them are functions, read at the positions that are drawn. -/
import Verif.Model.Hyrax

namespace Zkp.Hx

open Zkp.Ml Zkp.Spartan Zkp.Gkr Zkp.Cp Zkp.Sc

variable {F : Type} [Field F] {G : Type} [AddCommGroup G] [Module F G] [DecidableEq F] [DecidableEq G]

/-- zk_sumcheck_proof.rs:102-177: the coefficients of a round polynomial of degree three. The tables are those of
all gates and nodes; `f` sums over the gates (the code runs over the gates first and over the cells second). -/
def cubicPoly (f : (Nat → F) → F) (ts : List (List F)) (claim : F) : Option (List F) := do
  let size := tableLen ts / 2
  let e0 := partSum f ts size
  let t2 ← ts.mapM (combineWithR · 2)
  let e2 := partSum f t2 size
  let t3 ← ts.mapM (combineWithR · 3)
  let e3 := partSum f t3 size
  cubicCoeffs e0 (claim - e0) e2 e3

/-- zk_sumcheck_proof.rs:246-300 and 353-404: the coefficients of a round polynomial of degree two. In the third
sum-check `eval_1` is summed up first and then replaced by `claim - eval_0`. -/
def quadPoly (f : (Nat → F) → F) (ts : List (List F)) (claim : F) : Option (List F) := do
  let size := tableLen ts / 2
  let e0 := partSum f ts size
  let t2 ← ts.mapM (combineWithR · 2)
  let e2 := partSum f t2 size
  quadCoeffs e0 (claim - e0) e2

/-- What a sum-check leaves behind (zk_sumcheck_proof.rs:99-220, 242-337, 349-441). -/
structure Loop (F G : Type) where
  polys : List (List F)
  commPolys : List G
  commEvals : List G
  rs : List F
  tables : List (List F)
  claim : F
  comm : G

/-- zk_sumcheck_proof.rs:101-220, 245-337, 352-441: the loop of one of the three sum-checks, from round `j` on.
`DensePolynomial` drops trailing zeros (`trim`) but `polys` keeps them. -/
def zkLoop (ch : Oracle F G) (gen1 genK : MultiParams G) (round : List (List F) → F → Option (List F))
    (blind : Nat → F) (blindEval : Nat → Option F) : Nat → Nat → F → G → List (List F) → Vf F G (Loop F G)
  | 0, _, claim, comm, ts => pure ⟨[], [], [], [], ts, claim, comm⟩
  | k + 1, j, claim, comm, ts => do
    let p ← orPanic (round ts claim)
    let commPoly := commitVec genK.generators (trim p) genK.h (blind j)
    say (.pt "comm_poly" commPoly)
    let r ← challenge ch "challenge_nextround"
    let ts' ← orPanic (foldTables ts r)
    let eval := polyEval (trim p) r
    let b ← orPanic (blindEval j)
    let commEval := commitVec gen1.generators [eval] gen1.h b
    say (.pt "comm_claim_per_round" comm)
    say (.pt "comm_eval" commEval)
    let l ← zkLoop ch gen1 genK round blind blindEval k (j + 1) eval commEval ts'
    pure ⟨p :: l.polys, commPoly :: l.commPolys, commEval :: l.commEvals, r :: l.rs, l.tables, l.claim, l.comm⟩

/-- zk_sumcheck_proof.rs:106-156: a gate in the first sum-check; whatever is not an addition is multiplied. -/
def opFirst (op : Nat) (l r : F) : F := if op = 0 then l + r else l * r

/-- zk_sumcheck_proof.rs:250-287, 357-392: a gate in the other two; operators other than 0 and 1 are skipped. -/
def opLater (op : Nat) (l r : F) : F := if op = 0 then l + r else if op = 1 then l * r else 0

/-- zk_sumcheck_proof.rs:106-156: tables `temp_vec` (one per gate), then `circuit_evals` (one per node). -/
def sumFirst (gates : List Gate) (v : Nat → F) : F :=
  (gates.zipIdx.map fun (g, i) => v i * opFirst g.op (v (gates.length + g.left)) (v (gates.length + g.right))).sum

/-- zk_sumcheck_proof.rs:250-287: tables `left_eq_vec`, then `v_vec_left`. -/
def sumLeft (gates : List Gate) (p vs : List F) (v : Nat → F) : F :=
  (gates.zipIdx.map fun (g, i) => v i * p.getD i 0 * opLater g.op (v gates.length) (vs.getD g.right 0)).sum

/-- zk_sumcheck_proof.rs:357-392: tables `right_eq_vec`, then `v_vec_right`. -/
def sumRight (gates : List Gate) (p : List F) (x : F) (v : Nat → F) : F :=
  (gates.zipIdx.map fun (g, i) => v i * p.getD i 0 * opLater g.op x (v gates.length)).sum

/-- evaluate.rs:236-251 `convert_to_bit`; more than `logG` binary digits underflow. -/
def convertToBit (n logG : Nat) : Option (List F) :=
  let bits : List F := (Nat.digits 2 n).map fun b => if b = 0 then 0 else 1
  if bits.length ≤ logG then some (bits ++ List.replicate (logG - bits.length) 0).reverse else none

/-- The random scalars of one layer: `r_alpha_vec`, `r_alpha_eval_vec` (zk_sumcheck_proof.rs:73-78), `rx`, `ry`, `rz`,
those of the product proof, `d_vec`, `r_delta_vec` and `rc` (516-585). -/
structure ZkRand (F : Type) where
  alpha : Nat → F
  alphaEval : Nat → F
  x : F
  y : F
  z : F
  b1 : F
  b2 : F
  b3 : F
  b4 : F
  b5 : F
  d : Nat → F
  rDelta : Nat → F
  c : F

/-- zk_sumcheck_proof.rs:522-567: the commitments to the masks of the rounds. -/
def deltaCommits (params : Params G) (rand : ZkRand F) (logG logN : Nat) : List G :=
  (List.range (logN + 2 * logG)).map fun j =>
    if j < logN then
      commitVec params.gen4.generators [rand.d (j * 4), rand.d (j * 4 + 1), rand.d (j * 4 + 2), rand.d (j * 4 + 3)]
        params.gen4.h (rand.rDelta j)
    else
      commitVec params.gen3.generators [rand.d (logN + j * 3), rand.d (logN + j * 3 + 1), rand.d (logN + j * 3 + 2)]
        params.gen3.h (rand.rDelta j)

/-- zk_sumcheck_proof.rs:493-620 `sumcheck_prover`; the commitments and polynomials of the rounds are put into the
proof by the caller (475-488). -/
def sumcheckProve (ch : Oracle F G) (params : Params G) (x y : F) (logG logN : Nat) (m : Mat F) (pie : List F) (rc0 : F)
    (rand : ZkRand F) (a0 : G) (polys evals : List G) : Vf F G (ZkProof F G) := do
  let (prod, cx, cy, cz) ← productProve ch params.gen1 x rand.x y rand.y (x * y) rand.z rand.b1 rand.b2 rand.b3 rand.b4
    rand.b5
  let deltas := deltaCommits params rand logG logN
  sayDeltas deltas
  let rou ← challenges ch "challenge_nextround" (logN + 2 * logG + 1)
  let j := jVec rou m (logN + 2 * logG + 1)
  let w := 4 * logN + 6 * logG
  let jd := ((List.range w).map fun k => j k * rand.d k).sum
  let commC := commitVec params.gen1.generators [jd] params.gen1.h rand.c
  say (.pt "comm_c" commC)
  let c ← challenge ch "challenge_nextround"
  ensure .panic (w ≤ pie.length)
  pure ⟨prod, a0, commC, cx, cy, cz, polys, evals, deltas, (List.range w).map fun k => c * pie.getD k 0 + rand.d k,
    (List.range (logN + 2 * logG)).map fun k => c * rand.alpha k + rand.rDelta k,
    c * (rou.getD 0 0 * rc0 - j w * rand.x - j (w + 1) * rand.y - j (w + 2) * rand.z) + rand.c⟩

/-- zk_sumcheck_proof.rs:83-95: the tables `temp_vec`. -/
def tempVec (qa ql qr : List F) (u0 u1 : F) : List (List F) :=
  (List.zipWith (fun l r => l * u0 + r * u1) (evalEq ql) (evalEq qr)).map fun x => (evalEq qa).map fun e => e * x

/-- zk_sumcheck_proof.rs:431: the third sum-check reads `r_alpha_eval_vec` at `log_n + log_g + j` with
`log_g = ql_vec.len()` instead of `log_ng`, although the vector has `log_n + 2 * log_ng` elements. -/
def lastBlind (rand : ZkRand F) (logN logNg logG : Nat) (j : Nat) : Option F :=
  if j - logNg + logG < logN + 2 * logNg then some (rand.alphaEval (j - logNg + logG)) else none

/-- zk_sumcheck_proof.rs:35-491 `prover`: the proof, the three lists of challenges, `x`, `y`, and their blinding
factors. -/
def zkProve (ch : Oracle F G) (params : Params G) (claim : F) (a0 : G) (rc0 u0 u1 : F) (qa ql qr : List F)
    (gates : List Gate) (evals : List (List F)) (n ng : Nat) (rand : ZkRand F) :
    Vf F G (ZkProof F G × (List F × List F × List F) × F × F) := do
  let logG := Nat.clog 2 ng
  let logN := Nat.clog 2 n
  ensure .panic (qa.length = logN)
  ensure .panic (ql.length = qr.length)
  let temp := tempVec qa ql qr u0 u1
  ensure .panic (temp.length = gates.length)
  ensure .panic (gates.all fun g => g.left < ng && g.right < ng)
  let one ← zkLoop ch params.gen1 params.gen4 (cubicPoly (sumFirst gates)) rand.alpha (fun j => some (rand.alphaEval j))
    logN 0 claim a0 (temp ++ evals)
  let hs ← orPanic (heads one.tables)
  let p := hs.take gates.length
  let vs := hs.drop gates.length
  let eqs ← orPanic ((List.range ng).mapM fun i => (convertToBit i logG).map fun b => evalEq (b : List F))
  let left := gates.map fun g => eqs.getD g.left []
  let right := gates.map fun g => eqs.getD g.right []
  let two ← zkLoop ch params.gen1 params.gen3 (quadPoly (sumLeft gates p vs)) rand.alpha
    (fun j => some (rand.alphaEval j)) logG logN one.claim one.comm (left ++ [vs])
  let hl ← orPanic (heads two.tables)
  let p2 := List.zipWith (· * ·) hl p
  let x ← orPanic hl[gates.length]?
  let three ← zkLoop ch params.gen1 params.gen3 (quadPoly (sumRight gates p2 x)) rand.alpha
    (lastBlind rand logN logG ql.length) logG (logN + logG) two.claim two.comm (right ++ [vs])
  let hr ← orPanic (heads three.tables)
  let y ← orPanic hr[gates.length]?
  let m ← orPanic (constructMatrix one.rs two.rs three.rs qa ql qr gates u0 u1 logN logG)
  let pie := (one.polys ++ two.polys ++ three.polys).flatten ++ [x, y, x * y]
  let proof ← sumcheckProve ch params x y logG logN m pie rc0 rand a0 (one.commPolys ++ two.commPolys ++ three.commPolys)
    (one.commEvals ++ two.commEvals ++ three.commEvals)
  pure (proof, (one.rs, two.rs, three.rs), x, y)

/-- hyrax_proof.rs:72-91: what the loop over the layers carries. -/
structure PSt (F G : Type) where
  claim : F
  comm : G
  rc0 : F
  x : F
  y : F
  rx : F
  ry : F
  u0 : F
  u1 : F
  qa : List F
  ql : List F
  qr : List F

/-- hyrax_proof.rs:93-107: the values of the nodes of the layer below, one table per node with one cell per
instance. `evals` holds the layers from the input up (the code numbers them from the output). -/
def nodeTables (evals : List (List (List F))) (layer count ng n : Nat) : Option (List (List F)) :=
  if evals.all fun e => decide (layer < e.length) && decide (count ≤ (e.getD layer []).length) then
    some (((List.range count).map fun i => evals.map fun e => (e.getD layer []).getD i 0) ++
      List.replicate (ng - count) (List.replicate n 0))
  else none

/-- hyrax_proof.rs:92-147: the layers `d, d + 1, …`, from the output down. -/
def layersProve (ch : Oracle F G) (params : Params G) (c : Circuit) (n : Nat) (evals : List (List (List F)))
    (rands : Nat → ZkRand F) : Nat → Nat → PSt F G → Vf F G (List (ZkProof F G) × PSt F G)
  | 0, _, st => pure ([], st)
  | k + 1, d, st => do
    let next ← orPanic c.layers[c.depth - d - 2]?
    let ng := padTo next.gatesCount
    let tables ← orPanic (nodeTables evals (c.depth - d - 2) next.gatesCount ng n)
    let layer ← orPanic c.layers[c.depth - d - 1]?
    let (proof, (qa, ql, qr), x, y) ← zkProve ch params st.claim st.comm st.rc0 st.u0 st.u1 st.qa st.ql st.qr layer.gates
      tables n ng (rands d)
    let rx := (rands d).x
    let ry := (rands d).y
    if d < c.depth - 2 then
      let u0 ← challenge ch "u0"
      let u1 ← challenge ch "u1"
      let a := u0 • proof.x + u1 • proof.y
      say (.pt "comm_a_i" a)
      let (ps, st') ← layersProve ch params c n evals rands k (d + 1)
        ⟨x * u0 + y * u1, a, rx * u0 + ry * u1, x, y, rx, ry, u0, u1, qa, ql, qr⟩
      pure (proof :: ps, st')
    else
      let (ps, st') ← layersProve ch params c n evals rands k (d + 1)
        ⟨st.claim, st.comm, st.rc0, x, y, rx, ry, st.u0, st.u1, qa, ql, qr⟩
      pure (proof :: ps, st')

/-- The random scalars of one of the two claims about the input layer (hyrax_proof.rs:149-173, 175-199). -/
structure InputRand (F : Type) where
  eval : F
  d : F
  rBeta : F
  rDelta : F
  bullet : List (F × F)
  eq : F

/-- hyrax_proof.rs:149-173 and 175-199: one claim about the input layer. -/
def inputProve (ch : Oracle F G) (params : Params G) (witness blinds qa q : List F) (x rx : F) (rand : InputRand F) :
    Vf F G (DotProof F G × G × Spartan.EqProof F G) := do
  ensure .panic (1 ≤ q.length)
  let point := qa ++ q.tail
  let eval ← orPanic (evalValue witness point)
  let (prod, y) ← evalProve ch params.pc witness blinds point rand.eval eval rand.d rand.rBeta rand.rDelta rand.bullet
  let eq ← eqProve ch params.pc.gen1 x rx x ((1 - q.headD 0) * rand.eval) rand.eq
  pure (prod, y, eq)

/-- hyrax_proof.rs:43-51: the instances are evaluated; inputs and outputs enter the transcript in turns. -/
def evalInstances (c : Circuit) : List (List F × List F) → Vf F G (List (List (List F)))
  | [] => pure []
  | (i, w) :: rest => do
    say (.frs "input_i" i)
    match c.evaluate i w with
    | .error _ => throw .panic
    | .ok evals => do
      say (.frs "output_i" (evals.getLastD []))
      let es ← evalInstances c rest
      pure (evals :: es)

/-- The random points of the parameters (params.rs:17-25, 52-67, 77-89, 99-105): `gen_n`, its `h`, the generator of `gen_1`, `gen_3` and `gen_4` with theirs. -/
structure ParamRand (G : Type) where
  genN : Nat → G
  h : G
  g1 : G
  gen3 : Nat → G
  h3 : G
  gen4 : Nat → G
  h4 : G

/-- params.rs:99-105 `MultiCommitmentSetupParameters::new`. -/
def multiNew (n : Nat) (gs : Nat → G) (h : G) : MultiParams G := ⟨n, (List.range n).map gs, h⟩

/-- params.rs:17-25 `Parameters::new` with 52-67 `SumCheckCommitmentSetupParameters::new` and 77-89
`PolyCommitmentSetupParameters::new`: `gen_1` is shared and has the `h` of `gen_n`. -/
def paramsNew (num : Nat) (r : ParamRand G) : Params G :=
  let n := 2 ^ (num - num / 2)
  let gen1 : MultiParams G := ⟨1, [r.g1], r.h⟩
  ⟨gen1, multiNew 3 r.gen3 r.h3, multiNew 4 r.gen4 r.h4, ⟨n, multiNew n r.genN r.h, gen1⟩⟩

/-- The random scalars of the whole proof (hyrax_proof.rs:29-212). -/
structure HyraxRand (F : Type) where
  witness : List F
  layers : Nat → ZkRand F
  in0 : InputRand F
  in1 : InputRand F

/-- hyrax_proof.rs:29-212 `prover`: the proof and the outputs. -/
def prove (ch : Oracle F G) (params : Params G) (witnesses inputs : List (List F)) (c : Circuit)
    (circuitHash paramHash : F) (n : Nat) (rand : HyraxRand F) : Vf F G (HyraxProof F G × List (List F)) := do
  say (.fr "circuit_to_hash" circuitHash)
  say (.fr "param_to_hash" paramHash)
  ensure .panic (n ≤ inputs.length ∧ n ≤ witnesses.length)
  let evals ← evalInstances c ((inputs.zip witnesses).take n)
  let outputs := evals.map fun e => e.getLastD []
  ensure .panic (padTo n = n)
  ensure .panic (0 < n)
  let witness := inputVec (witnesses.take n)
  let comm ← packCommit params.pc.genN.generators params.pc.genN.h witness rand.witness
  say (.pts "comm_witness" comm)
  let (result, qa, ql) ← evalOutputs ch outputs
  let a := commitVec params.gen1.generators [result] params.gen1.h (0 : F)
  say (.pt "comm_claim_a0" a)
  ensure .panic (1 ≤ c.depth)
  let (proofs, st) ← layersProve ch params c n evals rand.layers (c.depth - 1) 0
    ⟨result, a, 0, 0, 0, 0, 0, 1, 0, qa, ql, ql⟩
  let (prod0, y0, eq0) ← inputProve ch params witness rand.witness st.qa st.ql st.x st.rx rand.in0
  let (prod1, y1, eq1) ← inputProve ch params witness rand.witness st.qa st.qr st.y st.ry rand.in1
  pure (⟨comm, proofs, prod0, y0, eq0, prod1, y1, eq1⟩, outputs)

end Zkp.Hx
