/- Model of layered circuits (/repo/libra/src/circuit.rs, /repo/hyrax/src/circuit.rs, equal up to the order
of the returned layers) and of Libra's linear GKR protocol (/repo/libra/src/libra_linear_gkr.rs,
evaluate.rs). -/
import Verif.Model.SumCheck

namespace Zkp.Gkr

open Zkp.Ml Zkp.Spartan Zkp.Sc

variable {F : Type} [Field F] {G : Type} [AddCommGroup G] [Module F G]

/-- libra/src/circuit.rs:15-20 `Gate`; hyrax/src/circuit.rs:15-20. -/
structure Gate where
  g : Nat
  op : Nat
  left : Nat
  right : Nat

/-- libra/src/circuit.rs:33-37 `Layer`; hyrax/src/circuit.rs:34-38. -/
structure Layer where
  gatesCount : Nat
  bitSize : Nat
  gates : List Gate

/-- libra/src/circuit.rs:111-114 `Circuit`; hyrax/src/circuit.rs:86-89. -/
structure Circuit where
  depth : Nat
  layers : List Layer

/-- libra/src/circuit.rs:40-53 `Layer::input_new`; hyrax/src/circuit.rs:40-58. `padTo` is
`next_power_of_two`. -/
def inputNew (numInputs numAux : Nat) : Layer :=
  let n := padTo (max numAux numInputs) * 2
  ⟨n, Nat.clog 2 n, (List.range n).map fun g => ⟨g, 3, 0, 0⟩⟩

/-- libra/src/circuit.rs:208-213 `Error`, and panics. -/
inductive Fail where
  | illegalOperator
  | illegalNode
  | panic
  deriving DecidableEq

/-- libra/src/circuit.rs:60-68: the check of one gate. -/
def checkGate (next : Nat) (x : (Nat × Nat × Nat) × Nat) : Except Fail Gate :=
  if x.1.1 ≠ 0 ∧ x.1.1 ≠ 1 then .error .illegalOperator
  else if x.1.2.1 ≥ next ∨ x.1.2.2 ≥ next then .error .illegalNode
  else .ok ⟨x.2, x.1.1, x.1.2.1, x.1.2.2⟩

/-- libra/src/circuit.rs:55-80 `Layer::mid_layer_new`; hyrax/src/circuit.rs:60-83. -/
def midLayerNew (raw : List (Nat × Nat × Nat)) (next : Nat) : Except Fail Layer := do
  let gates ← raw.zipIdx.mapM (checkGate next)
  pure ⟨gates.length, Nat.clog 2 (padTo gates.length), gates⟩

/-- libra/src/circuit.rs:130-135: the layers after the first; an `unwrap` of an error panics. -/
def midLayers : List (List (Nat × Nat × Nat)) → Nat → Except Fail (List Layer)
  | [], _ => .ok []
  | raw :: rest, next =>
    match midLayerNew raw next with
    | .error _ => .error .panic
    | .ok l => do
      let ls ← midLayers rest l.gatesCount
      pure (l :: ls)

/-- libra/src/circuit.rs:117-138 `Circuit::new`; hyrax/src/circuit.rs:92-113. -/
def Circuit.new (numInputs numAux : Nat) (raw : List (List (Nat × Nat × Nat))) : Except Fail Circuit := do
  let l0 := inputNew numInputs numAux
  let ls ← midLayers raw l0.gatesCount
  pure ⟨raw.length + 1, l0 :: ls⟩

/-- libra/src/circuit.rs:150-157: the values of the input layer. -/
def inputValues (bitSize : Nat) (inputs aux : List F) : Except Fail (List F) :=
  if bitSize = 0 then .error .panic
  else
    let size := 2 ^ (bitSize - 1)
    if inputs.length ≤ size ∧ aux.length ≤ size then
      .ok (aux ++ List.replicate (size - inputs.length) 0 ++ inputs ++ List.replicate (size - aux.length) 0)
    else .error .panic

/-- libra/src/circuit.rs:160-177: the value of one gate (Hyrax reports an illegal operator as an illegal
node). -/
def evalGate (prev : List F) (g : Gate) : Except Fail F :=
  if g.left ≥ prev.length ∨ g.right ≥ prev.length then .error .illegalNode
  else if g.op = 0 then .ok (prev.getD g.left 0 + prev.getD g.right 0)
  else if g.op = 1 then .ok (prev.getD g.left 0 * prev.getD g.right 0)
  else .error .illegalOperator

/-- libra/src/circuit.rs:147-182: the layers after the first. -/
def evalLayers : List Layer → List F → Except Fail (List (List F))
  | [], _ => .ok []
  | l :: ls, prev => do
    let values ← l.gates.mapM (evalGate prev)
    let rest ← evalLayers ls values
    pure (values :: rest)

/-- libra/src/circuit.rs:140-185 `Circuit::evaluate`; hyrax/src/circuit.rs:115-163 returns the layers in
reverse order. -/
def Circuit.evaluate (c : Circuit) (inputs aux : List F) : Except Fail (List (List F)) := do
  let evals ← match c.layers with
    | [] => .ok []
    | l0 :: ls => do
      let v0 ← inputValues l0.bitSize inputs aux
      let rest ← evalLayers ls v0
      pure (v0 :: rest)
  if evals.length = c.depth then .ok evals else .error .panic

/-! ### Libra -/

/-- libra/src/circuit.rs:82-108 `Layer::eval_operators`: the additive and the multiplicative wiring
predicate at a point. -/
def evalOperators (gates : List Gate) (gu gv ru rv : List F) (alpha beta : F) : Option (F × F) :=
  gates.foldlM (fun acc g => do
    let eval := alpha * (← (evalEq gu)[g.g]?) + beta * (← (evalEq gv)[g.g]?)
    if g.op = 0 then some (acc.1 + (← (evalEq ru)[g.left]?) * (← (evalEq rv)[g.right]?) * eval, acc.2)
    else if g.op = 1 then some (acc.1, acc.2 + (← (evalEq ru)[g.left]?) * (← (evalEq rv)[g.right]?) * eval)
    else some acc) (0, 0)

/-- `v[i] += x`, with a panic out of range. libra/src/evaluate.rs:91-115. -/
def addAt (v : List F) (i : Nat) (x : F) : Option (List F) := if i < v.length then some (v.modify i (· + x)) else none

/-- libra/src/evaluate.rs:79-99 `eval_hg`. -/
def evalHg (evalsG v : List F) (gates : List Gate) (bitSize : Nat) : Option (List F × List F × List F) :=
  let zeros := List.replicate (2 ^ bitSize) (0 : F)
  gates.foldlM (fun (acc : List F × List F × List F) g => do
    if g.op = 1 then some (← addAt acc.1 g.left ((← evalsG[g.g]?) * (← v[g.right]?)), acc.2)
    else if g.op = 0 then
      some (acc.1, ← addAt acc.2.1 g.left (← evalsG[g.g]?),
        ← addAt acc.2.2 g.left ((← evalsG[g.g]?) * (← v[g.right]?)))
    else some acc) (zeros, zeros, zeros)

/-- libra/src/evaluate.rs:101-119 `eval_fgu`. -/
def evalFgu (evalsG ru : List F) (gates : List Gate) (bitSize : Nat) : Option (List F × List F) :=
  let zeros := List.replicate (2 ^ bitSize) (0 : F)
  gates.foldlM (fun (acc : List F × List F) g => do
    if g.op = 1 then some (← addAt acc.1 g.right ((← evalsG[g.g]?) * (← ru[g.left]?)), acc.2)
    else if g.op = 0 then some (acc.1, ← addAt acc.2 g.right ((← evalsG[g.g]?) * (← ru[g.left]?)))
    else some acc) (zeros, zeros)

/-- libra/src/libra_linear_gkr.rs:210-215: the combined table of the two points. -/
def evalsG (gu gv : List F) (alpha beta : F) : Option (List F) :=
  if (evalEq gu).length ≤ (evalEq gv).length then
    some (List.zipWith (fun u v => alpha * u + beta * v) (evalEq gu) (evalEq gv))
  else none

/-- libra/src/libra_linear_gkr.rs:201-220 `initialize_phase_one`. -/
def initPhaseOne (gu gv : List F) (gates : List Gate) (v : List F) (bitSize : Nat) (alpha beta : F) :
    Option (List F × List F × List F) := do
  evalHg (← evalsG gu gv alpha beta) v gates bitSize

/-- libra/src/libra_linear_gkr.rs:222-244 `initialize_phase_two`. -/
def initPhaseTwo (gu gv ru : List F) (gates : List Gate) (v : List F) (bitSize : Nat) (alpha beta : F) :
    Option (List F × List F × F) := do
  let eq := evalEq ru
  if v.length ≠ eq.length then none
  else
    let fu := (List.zipWith (· * ·) v eq).sum
    let (mul, add) ← evalFgu (← evalsG gu gv alpha beta) eq gates bitSize
    some (mul, add, fu)

/-- libra/src/evaluate.rs:11-33 `eval_output`; more outputs than fit underflow. -/
def evalOutput (ch : Oracle F G) (output : List F) (bitSize : Nat) : Vf F G (F × List F) := do
  ensure .panic (output.length ≤ 2 ^ bitSize)
  let outputs := output ++ List.replicate (2 ^ bitSize - output.length) 0
  let rs ← challenges ch "challenge_nextround" bitSize
  let result ← orPanic (evalValue outputs rs)
  pure (result, rs)

/-- libra/src/libra_linear_gkr.rs:12-15 `LayerProof` and 17-19 `LinearGKRProof`. -/
structure LayerProof (F : Type) where
  one : PlainProof F
  two : PlainProof F

variable [DecidableEq F]

/-- One layer of the prover: `gates` are those of layer `d`, `v` the values of layer `d - 1`
(libra/src/libra_linear_gkr.rs:52-97). The results are the proof, the two points and the two values. -/
def proveLayer (ch : Oracle F G) (gates : List Gate) (v : List F) (bitSize : Nat) (gu gv : List F)
    (alpha beta claim : F) : Vf F G (LayerProof F × List F × List F × F × F) := do
  let (mul, add1, add2) ← orPanic (initPhaseOne gu gv gates v bitSize alpha beta)
  let (one, ru) ← phaseOneProver ch v mul add1 add2 bitSize claim
  let e0 ← orPanic one.values[0]?
  let e1 ← orPanic one.values[1]?
  let e2 ← orPanic one.values[2]?
  let e3 ← orPanic one.values[3]?
  let (mul, add, fu) ← orPanic (initPhaseTwo gu gv ru gates v bitSize alpha beta)
  let (two, rv) ← phaseTwoProver ch v mul add fu bitSize (e0 * e1 + e0 * e2 + e3)
  let fv ← orPanic two.values[0]?
  pure (⟨one, two⟩, ru, rv, fu, fv)

/-- libra/src/libra_linear_gkr.rs:51-110: the layers from the output to the input; each entry holds the
gates of layer `d` and the values and the size of layer `d - 1`. -/
def proveLayers (ch : Oracle F G) : List (List Gate × List F × Nat) → List F → List F → F → F → F → F →
    Vf F G (List (LayerProof F))
  | [], _, _, _, _, _, _ => pure []
  | (gates, v, bitSize) :: rest, gu, gv, resultU, resultV, alpha, beta => do
    let (p, ru, rv, fu, fv) ← proveLayer ch gates v bitSize gu gv alpha beta (alpha * resultU + beta * resultV)
    match rest with
    | [] => pure [p]
    | _ :: _ => do
      let alpha ← challenge ch "challenge_alpha"
      let beta ← challenge ch "challenge_beta"
      let ps ← proveLayers ch rest ru rv fu fv alpha beta
      pure (p :: ps)

/-- The layers as `proveLayers` wants them. libra/src/libra_linear_gkr.rs:51-90. -/
def layerInputs (layers : List Layer) (evals : List (List F)) : List (List Gate × List F × Nat) :=
  (List.zipWith (fun (x : Layer × List F) (l : Layer) => (l.gates, x.2, x.1.bitSize))
    (layers.zip evals) layers.tail).reverse

/-- libra/src/libra_linear_gkr.rs:28-36, 117-122: the start of the transcripts. -/
def linearStart (hash : F) (input output : List F) : Transcript F G :=
  [.fr "libra - linear gkr: circuit_to_hash" hash, .frs "input" input, .frs "output" output]

/-- libra/src/libra_linear_gkr.rs:22-114 `LinearGKRProof::prover`: the proof, and the values of the last
layer. A failed evaluation is unwrapped. -/
def linearProver (ch : Oracle F G) (c : Circuit) (inputs witnesses : List F) (hash : F) :
    Except Stop (List (LayerProof F) × List F) :=
  match c.evaluate inputs witnesses with
  | .error _ => .error .panic
  | .ok evals =>
    let output := evals.getLastD []
    let run : Vf F G (List (LayerProof F)) := do
      let last ← orPanic c.layers[c.depth - 1]?
      let (resultU, gu) ← evalOutput ch output last.bitSize
      proveLayers ch (layerInputs c.layers evals) gu (List.replicate gu.length 0) resultU 0 1 0
    match run (linearStart hash (evals.headD []) output) with
    | .ok (proofs, _) => .ok (proofs, output)
    | .error e => .error e

/-- libra/src/libra_linear_gkr.rs:143-155, 162-174: the rounds `i, i + 1, …` of the verifier. -/
def plainVerify (ch : Oracle F G) (polys : List (List F)) : Nat → Nat → F → Vf F G (List F × F)
  | 0, _, claim => pure ([], claim)
  | n + 1, i, claim => do
    let p ← orPanic polys[i]?
    ensure .panic (polyEval p 0 + polyEval p 1 = claim)
    say (.frs "poly" p)
    let r ← challenge ch "challenge_nextround"
    let (rs, final) ← plainVerify ch polys n (i + 1) (polyEval p r)
    pure (r :: rs, final)

/-- libra/src/libra_linear_gkr.rs:137-180: one layer of the verifier: the two points and the two values. -/
def verifyLayer (ch : Oracle F G) (proof : LayerProof F) (bitSize : Nat) (claim : F) :
    Vf F G (List F × List F × F × F) := do
  let (ru, claim) ← plainVerify ch proof.one.polys bitSize 0 claim
  say (.frs "claim_final" proof.one.values)
  let u0 ← orPanic proof.one.values[0]?
  let u1 ← orPanic proof.one.values[1]?
  let u2 ← orPanic proof.one.values[2]?
  let u3 ← orPanic proof.one.values[3]?
  ensure .panic (claim = u0 * u1 + u0 * u2 + u3)
  let (rv, claim) ← plainVerify ch proof.two.polys bitSize 0 claim
  say (.frs "claim_final" proof.two.values)
  let v0 ← orPanic proof.two.values[0]?
  let v1 ← orPanic proof.two.values[1]?
  let v2 ← orPanic proof.two.values[2]?
  ensure .panic (claim = v1 * v0 * u0 + v2 * u0 + v2 * v0)
  pure (ru, rv, u0, v0)

/-- libra/src/libra_linear_gkr.rs:136-194: the loop over the layers; the list holds the sizes of the
layers below. The results are the last points and values. -/
def verifyLayers (ch : Oracle F G) : List (LayerProof F) → List Nat → F → F → F → F →
    Vf F G (List F × List F × F × F)
  | p :: ps, size :: sizes, resultU, resultV, alpha, beta => do
    let (ru, rv, fu, fv) ← verifyLayer ch p size (alpha * resultU + beta * resultV)
    match ps with
    | [] => pure (ru, rv, fu, fv)
    | _ :: _ => do
      let alpha ← challenge ch "challenge_alpha"
      let beta ← challenge ch "challenge_beta"
      verifyLayers ch ps sizes fu fv alpha beta
  | _, _, _, _, _, _ => pure ([], [], 0, 0)

/-- libra/src/libra_linear_gkr.rs:123-198: the body of `LinearGKRProof::verify` after the start of the
transcript. The gates of the circuit are not used; `circuit.depth - 1` of an empty circuit underflows. -/
def linearRun (ch : Oracle F G) (c : Circuit) (outputs inputs : List F) (proofs : List (LayerProof F)) :
    Vf F G Bool := do
  ensure .panic (1 ≤ c.depth)
  let last ← orPanic c.layers[c.depth - 1]?
  let (resultU, _) ← evalOutput ch outputs last.bitSize
  ensure .panic (c.depth - 1 = proofs.length)
  ensure .panic (c.depth ≤ c.layers.length)
  let sizes := (List.range (c.depth - 1)).map fun d => ((c.layers.map fun l => l.bitSize).getD (c.depth - d - 2) 0)
  let (ru, rv, fu, fv) ← verifyLayers ch proofs sizes resultU 0 1 0
  let x ← orPanic (evalValue inputs ru)
  let y ← orPanic (evalValue inputs rv)
  pure (decide (fu = x) && decide (fv = y))

/-- libra/src/libra_linear_gkr.rs:116-198 `LinearGKRProof::verify`: `.ok b` is the returned Boolean. -/
def linearVerify (ch : Oracle F G) (c : Circuit) (outputs inputs : List F) (hash : F) (proofs : List (LayerProof F)) :
    Except Stop Bool :=
  match linearRun ch c outputs inputs proofs (linearStart hash inputs outputs) with
  | .ok (b, _) => .ok b
  | .error e => .error e

end Zkp.Gkr
