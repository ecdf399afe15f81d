/- Model of the digests that the callers of Libra, Hyrax and Spartan hand to the provers and verifiers:
/repo/libra/src/circuit.rs, /repo/libra/src/params.rs, /repo/hyrax/src/circuit.rs, /repo/hyrax/src/params.rs and
/repo/spartan/src/data_structure.rs. Each function is split into what it absorbs and the challenge drawn from it. The name
given to `Transcript::new` is part of the first label. -/
import Verif.Model.LibraZk
import Verif.Model.SpartanSnark

namespace Zkp.Digest

open Zkp.Spartan Zkp.Gkr

variable {F G : Type}

/-- libra/src/circuit.rs:196-199, hyrax/src/circuit.rs:172-175: one gate. -/
def gateMsgs (g : Gate) : List (Msg F G) :=
  [.u64 "circuit_gate_g" g.g, .u64 "circuit_gate_op" g.op, .u64 "circuit_gate_left_node" g.left,
    .u64 "circuit_gate_right_node" g.right]

/-- libra/src/circuit.rs:193-200, hyrax/src/circuit.rs:169-176: one layer. -/
def layerMsgs (l : Layer) : List (Msg F G) :=
  [.u64 "circuit_gate_count" l.gatesCount, .u64 "circuit_bit_size" l.bitSize] ++ l.gates.flatMap gateMsgs

/-- libra/src/circuit.rs:187-201, hyrax/src/circuit.rs:165-182 `circuit_to_hash`, with `name` libra or hyrax: everything
absorbed. -/
def circuitMsgs (name : String) (c : Circuit) : List (Msg F G) :=
  .u64 (name ++ " - circuit_to_hash: circuit_depth") c.depth :: c.layers.flatMap layerMsgs

/-- libra/src/circuit.rs:187-206, hyrax/src/circuit.rs:165-182 `circuit_to_hash`. -/
def circuitToHash (ch : Oracle F G) (name : String) (c : Circuit) : F :=
  ch (circuitMsgs name c ++ [.chal "challenge_nextround"])

/-- libra/src/params.rs:107-113, hyrax/src/params.rs:107-113, spartan/src/data_structure.rs:25-31 `param_to_hash`. -/
def multiMsgs (p : MultiParams G) : List (Msg F G) :=
  [.u64 "MultiCommitmentParameters_n" p.n, .pt "MultiCommitmentParameters_h" p.h] ++
    p.generators.map fun g => .pt "MultiCommitmentParameters_generators" g

/-- libra/src/params.rs:27-36, hyrax/src/params.rs:27-41 `param_to_hash`: everything absorbed. -/
def paramMsgs (name : String) (p : Hx.Params G) : List (Msg F G) :=
  .u64 (name ++ " - param_to_hash: r1cs_satisfied_params_pc_params_n") p.pc.n ::
    (multiMsgs p.pc.genN ++ multiMsgs p.pc.gen1 ++ multiMsgs p.gen1 ++ multiMsgs p.gen3 ++ multiMsgs p.gen4)

/-- libra/src/params.rs:27-41, hyrax/src/params.rs:27-41 `param_to_hash`. -/
def paramToHash (ch : Oracle F G) (name : String) (p : Hx.Params G) : F :=
  ch (paramMsgs name p ++ [.chal "challenge_nextround"])

/-- spartan/src/data_structure.rs:63-71 and 89-97: the parameters of the satisfiability proof. -/
def satMsgs (first second : String) (p : SatParams G) : List (Msg F G) :=
  [.u64 first p.n, .u64 second p.pc.n] ++
    (multiMsgs p.pc.genN ++ multiMsgs p.pc.gen1 ++ multiMsgs p.gen1 ++ multiMsgs p.gen3 ++ multiMsgs p.gen4)

/-- spartan/src/data_structure.rs:61-77 `NizkParameters::param_to_hash`: everything absorbed. -/
def nizkMsgs (p : SatParams G) : List (Msg F G) :=
  satMsgs "Spartan nizk params: r1cs_satisfied_params_n" "r1cs_satisfied_params_pc_params_n" p

/-- spartan/src/data_structure.rs:61-77 `NizkParameters::param_to_hash`. -/
def nizkToHash (ch : Oracle F G) (p : SatParams G) : F := ch (nizkMsgs p ++ [.chal "challenge_nextround"])

/-- spartan/src/data_structure.rs:99-109: one of the three commitment parameters. -/
def pcMsgs (label : String) (p : PcParams G) : List (Msg F G) :=
  .u64 label p.n :: (multiMsgs p.genN ++ multiMsgs p.gen1)

/-- spartan/src/data_structure.rs:87-115 `SnarkParameters::param_to_hash`: everything absorbed. -/
def snarkMsgs (sat : SatParams G) (evals : EvalsParams G) : List (Msg F G) :=
  satMsgs "Spartan snark params: r1cs_satisfied_params_n" "r1cs_satisfied_params_pc_params" sat ++
    pcMsgs "r1cs_eval_params_ops_params_n" evals.ops ++ pcMsgs "r1cs_eval_params_mem_params_n" evals.mem ++
    pcMsgs "r1cs_eval_params_derefs_params_n" evals.derefs

/-- spartan/src/data_structure.rs:87-115 `SnarkParameters::param_to_hash`. -/
def snarkToHash (ch : Oracle F G) (sat : SatParams G) (evals : EvalsParams G) : F :=
  ch (snarkMsgs sat evals ++ [.chal "challenge_nextround"])

/-- spartan/src/data_structure.rs:135-153 `encode_to_hash`: everything absorbed. -/
def encodeMsgs (e : EncodeCommit G) : List (Msg F G) :=
  [.u64 "Spartan EncodeCommit: EncodeCommit_n" e.n, .u64 "EncodeCommit_m" e.m] ++
    (e.ops.map fun c => .pt "EncodeCommit_ops_commit" c) ++ e.mem.map fun c => .pt "EncodeCommit_mem_commit" c

/-- spartan/src/data_structure.rs:135-153 `encode_to_hash`. -/
def encodeToHash (ch : Oracle F G) (e : EncodeCommit G) : F := ch (encodeMsgs e ++ [.chal "challenge_nextround"])

end Zkp.Digest
