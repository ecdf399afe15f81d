/- Hyrax's verifier with the comparison that it lacks (C53): in every layer, the commitment to the claim that the layer proof
is about is the commitment to the claim that the verifier has computed. -/
import Verif.Model.Hyrax

namespace Zkp.Hx

open Zkp.Ml Zkp.Spartan Zkp.Gkr

variable {F : Type} [Field F] {G : Type} [AddCommGroup G] [Module F G] [DecidableEq F] [DecidableEq G]

/-- hyrax_proof.rs:254-292 with one more check: `comm_a0` of the proof (zk_sumcheck_proof.rs:20) is the claim. -/
def layersChecked (ch : Oracle F G) (params : Params G) (proofs : List (ZkProof F G)) (c : Circuit) (n : Nat) :
    Nat → Nat → St F G → Vf F G (St F G)
  | 0, _, st => pure st
  | k + 1, d, st => do
    let next ← orPanic c.layers[c.depth - d - 2]?
    let ng := padTo next.gatesCount
    let p ← orPanic proofs[d]?
    let layer ← orPanic c.layers[c.depth - d - 1]?
    ensure .panic (p.a0 = st.a)
    let (x, y, qa, ql, qr) ← zkVerify ch params p st.a st.u0 st.u1 st.qa st.ql st.qr layer.gates n ng
    if d < c.depth - 2 then
      let u0 ← challenge ch "u0"
      let u1 ← challenge ch "u1"
      let a := u0 • x + u1 • y
      say (.pt "comm_a_i" a)
      layersChecked ch params proofs c n k (d + 1) ⟨a, x, y, u0, u1, qa, ql, qr⟩
    else
      layersChecked ch params proofs c n k (d + 1) ⟨st.a, x, y, st.u0, st.u1, qa, ql, qr⟩

/-- hyrax_proof.rs:212-355 `verify` with the additional check. -/
def verifyChecked (ch : Oracle F G) (params : Params G) (proof : HyraxProof F G) (outputs inputs : List (List F))
    (c : Circuit) (circuitHash paramHash : F) : Vf F G Unit := do
  say (.fr "circuit_to_hash" circuitHash)
  say (.fr "param_to_hash" paramHash)
  let n := outputs.length
  ensure .panic (padTo n = n)
  ensure .panic (0 < n)
  sayInstances inputs outputs
  say (.pts "comm_witness" proof.witness)
  let (result, qa, ql) ← evalOutputs ch outputs
  let a := commitVec params.gen1.generators [result] params.gen1.h (0 : F)
  say (.pt "comm_claim_a0" a)
  ensure .panic (1 ≤ c.depth)
  let st ← layersChecked ch params proof.proofs c n (c.depth - 1) 0 ⟨a, a, a, 1, 0, qa, ql, ql⟩
  let ins := inputVec (inputs.take n)
  inputVerify ch params proof.witness proof.prod0 proof.y0 proof.eq0 ins st.qa st.ql st.x
  inputVerify ch params proof.witness proof.prod1 proof.y1 proof.eq1 ins st.qa st.qr st.y

end Zkp.Hx
