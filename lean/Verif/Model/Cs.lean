/-
Model of the constraint-system interface used by the gadgets.
Source: /repo/r1cs/src/constraint_system.rs (trait), /repo/r1cs/src/error.rs,
/repo/gadgets/src/test_constraint_system.rs (a backend that evaluates the closures),
/repo/groth16/src/generator.rs:66-118 (a backend that does not).
-/
import Verif.Model.R1cs

namespace Zkp

/-- r1cs/src/error.rs:7-24 `SynthesisError` (payload-free variants used by the modelled code), plus
`panic` for Rust panics (failed `assert!`, `expect`, index out of range). -/
inductive SynthesisError where
  | assignmentMissing
  | divisionByZero
  | unsatisfiable
  | polynomialDegreeTooLarge
  | unexpectedIdentity
  | ioError
  | malformedVerifyingKey
  | unconstrainedVariable
  | panic
deriving DecidableEq, Repr

/-- One rank-1 constraint `a * b = c` as passed to `enforce`. -/
structure R1C (F : Type) where
  a : LC F
  b : LC F
  c : LC F

/-- State of a constraint-system backend.  `proving = true`: the value closures are evaluated
(test_constraint_system.rs:347-375, the provers); `proving = false`: the closures are ignored
(groth16/src/generator.rs:66-96) and a placeholder `0` is stored, so that list lengths still count
the variables.  Annotations and namespaces are left out here; `Model/TestCs.lean` has them. -/
structure CS (F : Type) where
  proving : Bool
  inputs : List F
  aux : List F
  constraints : List (R1C F)

/-- Gadget code: state passing with errors (`?`-propagation).
Every gadget is a function of `cs: &mut CS` to `Result<_, SynthesisError>`, as in r1cs/src/constraint_system.rs:13-100. -/
abbrev Synth (F : Type) := StateT (CS F) (Except SynthesisError)

variable {F : Type} [Field F]

/-- test_constraint_system.rs:135-149 `new`: the first input is the constant one (the provers do the
same, e.g. groth16/src/prover.rs:150-152). -/
def CS.new (proving : Bool) : CS F := ⟨proving, [1], [], []⟩

/-- `alloc` (constraint_system.rs:20-28; test_constraint_system.rs:347-360): a fresh auxiliary
variable; the closure result `f` is only looked at when proving. -/
def alloc (f : Except SynthesisError F) : Synth F Index := fun cs =>
  if cs.proving then
    match f with
    | .error e => .error e
    | .ok v => .ok (.aux cs.aux.length, { cs with aux := cs.aux ++ [v] })
  else .ok (.aux cs.aux.length, { cs with aux := cs.aux ++ [0] })

/-- `alloc_input` (constraint_system.rs:30-36; test_constraint_system.rs:362-375). -/
def allocInput (f : Except SynthesisError F) : Synth F Index := fun cs =>
  if cs.proving then
    match f with
    | .error e => .error e
    | .ok v => .ok (.input cs.inputs.length, { cs with inputs := cs.inputs ++ [v] })
  else .ok (.input cs.inputs.length, { cs with inputs := cs.inputs ++ [0] })

/-- `enforce` (constraint_system.rs:38-48; test_constraint_system.rs:377-394). The three arguments
are the results of the closures applied to the empty combination. -/
def enforce (a b c : LC F) : Synth F Unit := fun cs =>
  .ok ((), { cs with constraints := cs.constraints ++ [⟨a, b, c⟩] })

/-- Whether the backend evaluates closures; used where the Rust closure assigns to a captured
variable (`result_value = Some(..)`), which only happens if the closure is called.
gadgets/src/algebra/boolean.rs:137-156. -/
def isProving : Synth F Bool := fun cs => .ok (cs.proving, cs)

/-- `Option::ok_or(SynthesisError::AssignmentMissing)`. For instance gadgets/src/algebra/boolean.rs:38. -/
def okOr {α : Type} : Option α → Except SynthesisError α
  | some v => .ok v
  | none => .error .assignmentMissing

/-- A Rust panic. For instance gadgets/src/hashes/sha256.rs:41. -/
def panicS {α : Type} : Synth F α := fun _ => .error .panic

/-- An early `Err(e)`. `SynthesisError` of r1cs/src/error.rs:7-24. -/
def failS {α : Type} (e : SynthesisError) : Synth F α := fun _ => .error e

end Zkp
