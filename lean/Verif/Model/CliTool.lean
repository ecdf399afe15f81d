/- Model of the three command-line tools: the `main` functions and macros of /repo/cli/src/setup.rs,
/repo/cli/src/zkp_prove.rs and /repo/cli/src/zkp_verify.rs. -/
import Verif.Model.Cli
import Verif.Model.Bulletproofs

namespace Zkp.Cli

/-- How a tool ends: `main` returns `Ok(())`, returns `Err(_)`, or panics.  The payload of `ok` is what
the run leaves behind (files written, verdict printed).  cli/src/zkp_verify.rs:132 `main`. -/
inductive Outcome (α : Type) where
  | ok (a : α)
  | err
  | panic
  deriving DecidableEq

/-- Continue after a step that may end the run (`?`, `return Err`, `unwrap`).  cli/src/zkp_verify.rs:132-163. -/
def Outcome.bind {α β : Type} : Outcome α → (α → Outcome β) → Outcome β
  | .ok a, f => f a
  | .err, _ => .err
  | .panic, _ => .panic

/-- `unwrap`, `expect` and indexing: a missing value is a panic.  For instance cli/src/zkp_verify.rs:61,
144, 150. -/
def orPanic {α : Type} : Option α → Outcome α
  | some a => .ok a
  | none => .panic

/-- The status with which the process ends: 0 for `Ok`, 1 for `Err` (external crate `std`, `Termination`
of `Result`), 101 for a panic.  cli/src/zkp_verify.rs:132. -/
def Outcome.exitCode {α : Type} : Outcome α → Nat
  | .ok _ => 0
  | .err => 1
  | .panic => 101

/-- Text as the list of its UTF-8 bytes; the literals of the tools are ASCII.
cli/src/zkp_verify.rs:17, 31, 58. -/
def tx (s : String) : List Nat := s.toList.map Char.toNat

/-- `format!("{}", z)` of a `u64` (external crate `core`), as used at cli/src/zkp_prove.rs:107. -/
def toDecimal (n : Nat) : List Nat :=
  if n < 10 then [48 + n] else toDecimal (n / 10) ++ [48 + n % 10]

/-- The digit loop of `u64::from_str` (external crate `core`): a byte that is not a digit and an overflow
are errors.  Used at cli/src/circuits/mini.rs:51-62. -/
def parseDigits : List Nat → Nat → Option Nat
  | [], acc => some acc
  | c :: cs, acc =>
    if 48 ≤ c ∧ c ≤ 57 ∧ acc * 10 + (c - 48) < 2 ^ 64 then parseDigits cs (acc * 10 + (c - 48)) else none

/-- `str::parse::<u64>` (external crate `core`): the empty text and a lone `+` are errors, one leading `+`
is skipped.  Used at cli/src/circuits/mini.rs:51-62 and cli/src/zkp_verify.rs:18. -/
def parseU64 (s : List Nat) : Option Nat :=
  match s with
  | [] => none
  | c :: cs =>
    if c = 43 then (if cs = [] then none else parseDigits cs 0)
    else parseDigits (c :: cs) 0

/-- The JSON object of a proof file, cli/src/zkp_prove.rs:117-123.  Writing and parsing JSON is external
(`serde_json`); a file with missing fields makes `zkp-verify` panic (zkp_verify.rs:146-150) and is treated
like a missing file here. -/
structure ProofFile where
  circuit : List Nat
  scheme : List Nat
  curve : List Nat
  params : List (List Nat)
  proof : List Nat

/-- The files the tools read and write: `./setup_files` by name and the proof files by path.
cli/src/zkp_prove.rs:13-14, cli/src/setup.rs:12.  Failing writes are left out. -/
structure World where
  setup : List Nat → Option (List UInt8)
  proofs : List Nat → Option ProofFile

/-- `std::fs::write`: afterwards the file has the new content.  cli/src/setup.rs:82-83. -/
def put {α : Type} (m : List Nat → Option α) (k : List Nat) (v : α) : List Nat → Option α :=
  fun x => if x = k then some v else m x

/-- `format!("{}-{}-{}<ext>", scheme, curve, circuit)`: setup.rs:49, 62, 76-77; zkp_prove.rs:37, 64, 82,
103; zkp_verify.rs:54, 78-81, 96-99 (all in cli/src). -/
def fileName (scheme curve circuit : List Nat) (ext : String) : List Nat :=
  scheme ++ tx "-" ++ curve ++ tx "-" ++ circuit ++ tx ext

/-- The path of a proof file, cli/src/zkp_prove.rs:13 and 99-103. -/
def proofPath (scheme curve circuit : List Nat) : List Nat :=
  tx "./proof_files/" ++ fileName scheme curve circuit ".proof.json"

/-- `std::fs::read(&path).unwrap_or(vec![])`: a missing file is read as empty.
cli/src/zkp_prove.rs:38, 66, 84; cli/src/zkp_verify.rs:55, 83, 101. -/
def readOr (m : List Nat → Option (List UInt8)) (name : List Nat) : List UInt8 := (m name).getD []

/-- The circuits of the tool.  cli/src/circuits/mod.rs:17-18. -/
inductive Kind where
  | mini
  | hash
  deriving DecidableEq

/-- The `match $circuit` of the three `handle_circuit!` macros: cli/src/setup.rs:16-26,
cli/src/zkp_prove.rs:18-30, cli/src/zkp_verify.rs:16-47. -/
def kindOf (circuit : List Nat) : Option Kind :=
  if circuit = tx "mini" then some .mini
  else if circuit = tx "hash" then some .hash
  else none

/-- cli/src/circuits/mod.rs:4-7 `Publics`. -/
inductive Publics (F : Type) where
  | mini (z : Nat)
  | hash (image : F)

section
variable {p : Nat} [Fact p.Prime]

/-- `generate_constraints` of the circuit without values: cli/src/circuits/mini.rs:41-48 `power_off`,
cli/src/circuits/hash.rs:33-38 `power_off`.  `n`, `k`: limb bytes and MiMC constants, as in `Mimc.mimc`. -/
def powerOff (n : Nat) (k : List (ZMod p)) : Kind → Synth (ZMod p) Unit
  | .mini => do let _ ← mini (none : Option (ZMod p)) none none 10
  | .hash => do let _ ← hashCircuit n k none

/-- cli/src/circuits/mini.rs:50-73 and cli/src/circuits/hash.rs:40-50 `power_on`: the circuit with the
values from the arguments, and the public values; `none` is a panic (missing argument, number that does
not parse, hash of the empty text). -/
def powerOn (n : Nat) (k : List (ZMod p)) (args : List (List Nat)) :
    Kind → Option (Synth (ZMod p) Unit × Publics (ZMod p))
  | .mini =>
    match args with
    | a0 :: a1 :: a2 :: _ =>
      match parseU64 a0, parseU64 a1, parseU64 a2 with
      | some x, some y, some z =>
        some ((do let _ ← mini (some (x : ZMod p)) (some (y : ZMod p)) (some (z : ZMod p)) 10), .mini z)
      | _, _, _ => none
    | _ => none
  | .hash =>
    match args with
    | a0 :: _ =>
      let bytes := a0.map UInt8.ofNat
      match Mimc.hash n bytes k with
      | some h => some ((do let _ ← hashCircuit n k (some bytes)), .hash h)
      | none => none
    | _ => none

/-- The library functions of the proof systems as the tools call them: on bytes, (de)serialization
included, so that deserialization errors, `Err` results and panics are all `none` (the tools `unwrap`
them).  `R` is the random tape.
cli/src/setup.rs:39-45, 54-56, 67-69; cli/src/zkp_prove.rs:44-49, 52-59, 62-77, 80-94;
cli/src/zkp_verify.rs:60-64, 67-73, 76-91, 94-108. -/
structure Schemes (F R : Type) where
  groth16Setup : Synth F Unit → R → Option (List UInt8 × List UInt8)
  groth16Prove : List UInt8 → Synth F Unit → R → Option (List UInt8)
  groth16Verify : List UInt8 → List UInt8 → List F → Option Bool
  bulletproofsProve : Synth F Unit → R → Option (List UInt8)
  bulletproofsVerify : List UInt8 → List F → Option Bool
  snarkSetup : Synth F Unit → R → Option (List UInt8)
  snarkProve : List UInt8 → Synth F Unit → R → Option (List UInt8)
  snarkVerify : List UInt8 → List UInt8 → List F → Option Bool
  nizkSetup : Synth F Unit → R → Option (List UInt8)
  nizkProve : List UInt8 → Synth F Unit → R → Option (List UInt8)
  nizkVerify : List UInt8 → List UInt8 → List F → Option Bool
  encF : F → List UInt8
  decF : List UInt8 → Option F

variable {R : Type}

/-- cli/src/setup.rs:30-87 `handle_scheme!`. -/
def setupScheme (B : Schemes (ZMod p) R) (r : R) (w : World) (c : Synth (ZMod p) Unit)
    (scheme curve circuit : List Nat) : Outcome World :=
  if scheme = tx "groth16" then
    (orPanic (B.groth16Setup c r)).bind fun (vk, pk) =>
      let files := put w.setup (fileName scheme curve circuit ".pk") pk
      .ok { w with setup := put files (fileName scheme curve circuit ".vk") vk }
  else if scheme = tx "spartan_snark" then
    (orPanic (B.snarkSetup c r)).bind fun srs =>
      .ok { w with setup := put w.setup (fileName scheme curve circuit ".universal_setup") srs }
  else if scheme = tx "spartan_nizk" then
    (orPanic (B.nizkSetup c r)).bind fun srs =>
      .ok { w with setup := put w.setup (fileName scheme curve circuit ".universal_setup") srs }
  else .err

/-- cli/src/setup.rs:89-130 `main` with the macro of 14-28.  `args[0]` is the program. -/
def setupMain (n : Nat) (k : List (ZMod p)) (B : Schemes (ZMod p) R) (r : R) (w : World)
    (args : List (List Nat)) : Outcome World :=
  if args.length < 2 then .err
  else
    let circuit := args.getD 3 (tx "mini")
    (orPanic args[2]?).bind fun curve =>
    (orPanic args[1]?).bind fun scheme =>
    if curve = tx "bls12_381" then
      match kindOf circuit with
      | some kind => setupScheme B r w (powerOff n k kind) scheme curve circuit
      | none => .err
    else .err

/-- cli/src/zkp_prove.rs:41-97: the proof bytes. -/
def proveScheme (B : Schemes (ZMod p) R) (r : R) (w : World) (c : Synth (ZMod p) Unit)
    (scheme curve circuit : List Nat) : Outcome (List UInt8) :=
  if scheme = tx "groth16" then
    orPanic (B.groth16Prove (readOr w.setup (fileName scheme curve circuit ".pk")) c r)
  else if scheme = tx "bulletproofs" then
    orPanic (B.bulletproofsProve c r)
  else if scheme = tx "spartan_snark" then
    orPanic (B.snarkProve (readOr w.setup (fileName scheme curve circuit ".universal_setup")) c r)
  else if scheme = tx "spartan_nizk" then
    orPanic (B.nizkProve (readOr w.setup (fileName scheme curve circuit ".universal_setup")) c r)
  else .err

/-- cli/src/zkp_prove.rs:106-115: the public values as text. -/
def paramsOf (B : Schemes (ZMod p) R) : Publics (ZMod p) → List (List Nat)
  | .mini z => [toDecimal z]
  | .hash image => [toHex (B.encF image)]

/-- cli/src/zkp_prove.rs:134-173 `main` with the macros of 16-126. -/
def proveMain (n : Nat) (k : List (ZMod p)) (B : Schemes (ZMod p) R) (r : R) (w : World)
    (args : List (List Nat)) : Outcome World :=
  if args.length < 2 then .err
  else
    (orPanic args[2]?).bind fun curve =>
    (orPanic args[1]?).bind fun scheme =>
    (orPanic args[3]?).bind fun circuit =>
    if curve = tx "bls12_381" then
      match kindOf circuit with
      | some kind =>
        (orPanic (powerOn n k (args.drop 4) kind)).bind fun (c, publics) =>
        (proveScheme B r w c scheme curve circuit).bind fun bytes =>
        let content : ProofFile := ⟨circuit, scheme, curve, paramsOf B publics, toHex bytes⟩
        .ok { w with proofs := put w.proofs (proofPath scheme curve circuit) content }
      | none => .err
    else .err

/-- cli/src/zkp_verify.rs:51-115 `handle_scheme!`: the verdict that is printed. -/
def verifyScheme (B : Schemes (ZMod p) R) (w : World) (publics : List (ZMod p))
    (scheme curve circuit : List Nat) (bytes : List UInt8) : Outcome Bool :=
  if scheme = tx "groth16" then
    orPanic (B.groth16Verify (readOr w.setup (fileName scheme curve circuit ".vk")) bytes publics)
  else if scheme = tx "bulletproofs" then
    orPanic (B.bulletproofsVerify bytes publics)
  else if scheme = tx "spartan_snark" then
    orPanic (B.snarkVerify (readOr w.setup (fileName scheme curve circuit ".universal_setup")) bytes publics)
  else if scheme = tx "spartan_nizk" then
    orPanic (B.nizkVerify (readOr w.setup (fileName scheme curve circuit ".universal_setup")) bytes publics)
  else .err

/-- `from_hex(..).unwrap()`, cli/src/zkp_verify.rs:32 and 150. -/
def hexOrPanic (s : List Nat) : Outcome (List UInt8) :=
  match fromHex s with
  | .ok v => .ok v
  | _ => .panic

/-- cli/src/zkp_verify.rs:17-20 and 31-35: the public inputs from the text in the file. -/
def readPublics (B : Schemes (ZMod p) R) (params : List (List Nat)) : Kind → Outcome (List (ZMod p))
  | .mini =>
    (orPanic params[0]?).bind fun s => (orPanic (parseU64 s)).bind fun num => .ok [(num : ZMod p)]
  | .hash =>
    (orPanic params[0]?).bind fun s => (hexOrPanic s).bind fun bytes =>
      (orPanic (B.decF bytes)).bind fun image => .ok [image]

/-- cli/src/zkp_verify.rs:132-163 `main` with the macro of 14-49: `ok b` is a run that prints the verdict
`b` and then returns `Ok(())`. -/
def verifyMain (B : Schemes (ZMod p) R) (w : World) (args : List (List Nat)) : Outcome Bool :=
  if args.length < 2 then .err
  else
    (orPanic args[1]?).bind fun path =>
    (orPanic (w.proofs path)).bind fun f =>
    (hexOrPanic f.proof).bind fun bytes =>
    if f.curve = tx "bls12_381" then
      match kindOf f.circuit with
      | some kind =>
        (readPublics B f.params kind).bind fun publics =>
        verifyScheme B w publics f.scheme f.curve f.circuit bytes
      | none => .err
    else .err

end

section
open Bp

variable {F : Type} [Field F] [DecidableEq F] {G : Type} [AddCommGroup G] [Module F G] [DecidableEq G]

/-- What `create_random_proof` draws: the generators for a given number `m` of rows or variables, of the
length of bulletproofs/src/arithmetic_circuit.rs:275-282, and the blinding values of 354-361 and 494-501
(`sL`, `sR` have length `m`). -/
structure Tape (F G : Type) where
  gv : Nat → List G
  hv : Nat → List G
  g : G
  h : G
  u : G
  rnd : Nat → Rand F
  gv_len : ∀ m, (gv m).length = nextPow2 m
  hv_len : ∀ m, (hv m).length = nextPow2 m
  sL_len : ∀ m, (rnd m).sL.length = m
  sR_len : ∀ m, (rnd m).sR.length = m

/-- cli/src/zkp_prove.rs:52-59 with bulletproofs/src/arithmetic_circuit.rs:187-302: synthesize, prove,
serialize generators, circuit and proof.  `enc` is the serialization of the triple. -/
def bulletproofsProveBytes (ch : Oracle F G) (enc : Generators G × R1csCircuit F × Bp.Proof F G → List UInt8)
    (c : Synth F Unit) (t : Tape F G) : Option (List UInt8) :=
  match c (CS.new true) with
  | .error _ => none
  | .ok (_, cs) =>
    let m := max cs.constraints.length cs.aux.length
    (createProof ch cs (t.gv m) (t.hv m) t.g t.h t.u (t.rnd m)).map enc

/-- cli/src/zkp_verify.rs:67-73: generators, circuit and proof are all read from the proof bytes. -/
def bulletproofsVerifyBytes (ch : Oracle F G)
    (dec : List UInt8 → Option (Generators G × R1csCircuit F × Bp.Proof F G)) (bytes : List UInt8)
    (publics : List F) : Option Bool :=
  match dec bytes with
  | none => none
  | some (gens, r1cs, proof) => verifyProof ch gens proof r1cs publics

end

end Zkp.Cli
