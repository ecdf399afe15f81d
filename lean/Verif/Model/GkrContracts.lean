/- Model of the on-chain verifiers with a fixed layered circuit, in /repo/ckb-contracts/contracts. The two contracts call `verify`
without the digests of circuit and parameters, which `zkp_libra` and `zkp_hyrax` take as their last two arguments; here the
digests are functions of the circuit and the parameters. -/
import Verif.Model.Contracts
import Verif.Model.LibraZk
import Verif.Model.Hyrax

namespace Zkp.Contracts

/-- mini_libra_zk_linear_gkr_verifier/src/entry.rs:13-34 `layers` with its comment `x * (y + 2) = z`; the same in
mini_hyrax_zk_linear_gkr_verifier/src/entry.rs:13-34. A gate is an operation (0 adds, 1 multiplies) and two positions in the
layer below. -/
def layers : List (List (Nat × Nat × Nat)) :=
  [[(0, 1, 2), (1, 0, 4), (1, 3, 4), (1, 4, 4)], [(1, 0, 1), (1, 2, 3)], [(0, 0, 1)]]

variable {F G : Type} [Field F] [AddCommGroup G] [Module F G] [DecidableEq F] [DecidableEq G]

/-- mini_libra_zk_linear_gkr_verifier/src/entry.rs:61-67: the circuit and the verdict. -/
def libraVerdict (ch : Oracle F G) (circuitHash : Gkr.Circuit → F) (paramsHash : Hx.Params G → F) (params : Hx.Params G)
    (proof : Lz.ZkGkrProof F G) (x : List F × List F) : Option (Option Bool) :=
  match Gkr.Circuit.new 4 4 layers with
  | .error _ => none
  | .ok c => match Lz.zkVerify ch params c x.2 x.1 (circuitHash c) (paramsHash params) proof with
    | .ok b => some (some b)
    | .error _ => none

/-- mini_libra_zk_linear_gkr_verifier/src/entry.rs:36-68 `main`. -/
def libraMain (ch : Oracle F G) (circuitHash : Gkr.Circuit → F) (paramsHash : Hx.Params G → F)
    (decVk : List UInt8 → Option (Hx.Params G)) (decProof : List UInt8 → Option (Lz.ZkGkrProof F G))
    (decPub : List UInt8 → Option (List F × List F)) (cells : Nat → Except SysError (List UInt8)) : Res Unit :=
  main decVk decProof decPub (libraVerdict ch circuitHash paramsHash) cells

/-- mini_hyrax_zk_linear_gkr_verifier/src/entry.rs:61-67: the circuit and the verdict. -/
def hyraxVerdict (ch : Oracle F G) (circuitHash : Gkr.Circuit → F) (paramsHash : Hx.Params G → F) (params : Hx.Params G)
    (proof : Hx.HyraxProof F G) (x : List (List F) × List (List F)) : Option (Option Bool) :=
  match Gkr.Circuit.new 4 4 layers with
  | .error _ => none
  | .ok c => match Hx.verify ch params proof x.2 x.1 c (circuitHash c) (paramsHash params) [] with
    | .ok _ => some (some true)
    | .error .reject => some (some false)
    | .error _ => none

/-- mini_hyrax_zk_linear_gkr_verifier/src/entry.rs:36-68 `main`. -/
def hyraxMain (ch : Oracle F G) (circuitHash : Gkr.Circuit → F) (paramsHash : Hx.Params G → F)
    (decVk : List UInt8 → Option (Hx.Params G)) (decProof : List UInt8 → Option (Hx.HyraxProof F G))
    (decPub : List UInt8 → Option (List (List F) × List (List F))) (cells : Nat → Except SysError (List UInt8)) : Res Unit :=
  main decVk decProof decPub (hyraxVerdict ch circuitHash paramsHash) cells

end Zkp.Contracts
