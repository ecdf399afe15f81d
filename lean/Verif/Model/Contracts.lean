/- Model of the on-chain verifiers in /repo/ckb-contracts/contracts. -/
import Verif.Model.Bulletproofs

namespace Zkp.Contracts

/-- `ckb_std::error::SysError` (external). ckb-contracts/contracts/universal_groth16_verifier/src/error.rs:14-25. -/
inductive SysError where
  | indexOutOfBound
  | itemMissing
  | lengthNotEnough (n : Nat)
  | encoding
  | unknown (code : Nat)

/-- `Error` (universal_groth16_verifier/src/error.rs:5-12; identical in all contracts). -/
inductive Error where
  | indexOutOfBound
  | itemMissing
  | lengthNotEnough
  | encoding
  | verify

/-- The `#[repr(i8)]` value of an error (error.rs:4-12: starts at 1). -/
def Error.code : Error → Int
  | .indexOutOfBound => 1
  | .itemMissing => 2
  | .lengthNotEnough => 3
  | .encoding => 4
  | .verify => 5

/-- Result of a function that may also panic.
universal_groth16_verifier/src/entry.rs:12; the panic is that of error.rs:22 or of a called function. -/
inductive Res (α : Type) where
  | ok (a : α)
  | err (e : Error)
  | panic

/-- error.rs:14-25 `From<SysError>`; an unknown code panics. -/
def Error.from : SysError → Res Empty
  | .indexOutOfBound => .err .indexOutOfBound
  | .itemMissing => .err .itemMissing
  | .lengthNotEnough _ => .err .lengthNotEnough
  | .encoding => .err .encoding
  | .unknown _ => .panic

/-- `match load_cell_data(..) { Ok(data) => data, Err(err) => return Err(err.into()) }`.
universal_groth16_verifier/src/entry.rs:14-17. -/
def load (c : Except SysError (List UInt8)) : Res (List UInt8) :=
  match c with
  | .ok d => .ok d
  | .error e => match Error.from e with
    | .err e => .err e
    | .panic => .panic

/-- Sequencing (`?`). universal_groth16_verifier/src/entry.rs:31-34. -/
def Res.bind {α β : Type} (x : Res α) (f : α → Res β) : Res β :=
  match x with
  | .ok a => f a
  | .err e => .err e
  | .panic => .panic

/-- `.map_err(|_e| Error::Encoding)?`. universal_groth16_verifier/src/entry.rs:31-34. -/
def decode {α : Type} (dec : List UInt8 → Option α) (d : List UInt8) : Res α :=
  match dec d with
  | some a => .ok a
  | none => .err .encoding

/-- The last step of every `main`: `Ok(true) => Ok(()), _ => Err(Error::Verify)`.  `none` is a panic
inside the verifier, `some none` its error, `some (some b)` its answer.
universal_groth16_verifier/src/entry.rs:38-41. -/
def conclude (r : Option (Option Bool)) : Res Unit :=
  match r with
  | none => .panic
  | some (some true) => .ok ()
  | some _ => .err .verify

/-- universal_groth16_verifier/src/entry.rs:12-42, universal_marlin_verifier/src/entry.rs:12-40,
universal_plonk_verifier/src/entry.rs:18-56, universal_spartan_nizk_verifier/src/entry.rs:12-40,
universal_spartan_snark_verifier/src/entry.rs:12-40: load the cells with the key, the proof and the
public input, decode them in this order and verify.  `pub` is the decoder of the public cell into the
list of public inputs (a single element, for Plonk a vector).  Which decoder and verifier is used is a
parameter. -/
def main {VK P X : Type} (decVk : List UInt8 → Option VK) (decProof : List UInt8 → Option P)
    (decPub : List UInt8 → Option X) (verify : VK → P → X → Option (Option Bool))
    (cells : Nat → Except SysError (List UInt8)) : Res Unit :=
  (load (cells 0)).bind fun vkData =>
  (load (cells 1)).bind fun proofData =>
  (load (cells 2)).bind fun publicData =>
  (decode decVk vkData).bind fun vk =>
  (decode decProof proofData).bind fun proof =>
  (decode decPub publicData).bind fun publics =>
  conclude (verify vk proof publics)

/-- mini_clinkv2_kzg10_verifier/src/entry.rs:62-101, mini_clinkv2_ipa_verifier/src/entry.rs:62-101: the proof is decoded before
the key, and the fixed circuit is run before the proof is verified.  The crate `zkp-clinkv2` is not in the repository: `assemble`
is the result of `generate_constraints` (lines 21-59) with its `VerifyAssignment`, `verify` its verifier. -/
def clinkMain {VK P X A : Type} (decVk : List UInt8 → Option VK) (decProof : List UInt8 → Option P)
    (decPub : List UInt8 → Option X) (assemble : Option A) (verify : A → VK → P → X → Option (Option Bool))
    (cells : Nat → Except SysError (List UInt8)) : Res Unit :=
  (load (cells 0)).bind fun vkData =>
  (load (cells 1)).bind fun proofData =>
  (load (cells 2)).bind fun publicData =>
  (decode decProof proofData).bind fun proof =>
  (decode decVk vkData).bind fun vk =>
  (decode decPub publicData).bind fun publics =>
  match assemble with
  | none => .err .verify
  | some a => conclude (verify a vk proof publics)

/-- main.rs:23-29 `program_entry`: the exit code; `none` is a panic (the external panic handler of
`ckb-std` ends the script with a non-zero code). -/
def programEntry (r : Res Unit) : Option Int :=
  match r with
  | .ok () => some 0
  | .err e => some e.code
  | .panic => none

/-- mini_bulletproofs_verifier/src/entry.rs:47-85: the key cell is loaded but not used; generators and
circuit are decoded from the proof cell. -/
def bulletproofsMain {F G : Type} [Field F] [AddCommGroup G] [Module F G] [DecidableEq F] [DecidableEq G]
    (ch : Oracle F G)
    (decProof : List UInt8 → Option (Bp.Generators G × Bp.R1csCircuit F × Bp.Proof F G))
    (decPub : List UInt8 → Option F) (cells : Nat → Except SysError (List UInt8)) : Res Unit :=
  (load (cells 0)).bind fun _vkData =>
  (load (cells 1)).bind fun proofData =>
  (load (cells 2)).bind fun publicData =>
  (decode decProof proofData).bind fun t =>
  (decode decPub publicData).bind fun x =>
  conclude ((Bp.verifyProof ch t.1 t.2.2 t.2.1 [x]).map some)

end Zkp.Contracts
