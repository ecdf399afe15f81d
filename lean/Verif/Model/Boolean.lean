/- Model of /repo/gadgets/src/algebra/boolean.rs. -/
import Verif.Model.Cs

namespace Zkp

variable {F : Type} [Field F]

/-- boolean.rs:8-12 `AllocatedBit`. -/
structure AllocatedBit where
  variable_ : Index
  value : Option Bool
deriving DecidableEq

/-- `if v { F::one() } else { F::zero() }`, used throughout boolean.rs (e.g. 38-42). -/
def boolF (b : Bool) : F := if b then 1 else 0

/-- The value closure of boolean.rs:37-43, 75-81, 108-114. -/
def bitClosure (value : Option Bool) : Except SynthesisError F := do
  let v ← okOr value
  .ok (boolF v)

namespace AllocatedBit

/-- boolean.rs:26-63 `alloc_conditionally`: `(1 - must_be_false - a) * a = 0`. -/
def allocConditionally (value : Option Bool) (mustBeFalse : AllocatedBit) :
    Synth F AllocatedBit := do
  let var ← alloc (bitClosure value)
  enforce (((LC.zero.addVar .one).subVar mustBeFalse.variable_).subVar var)
    (LC.zero.addVar var) LC.zero
  return ⟨var, value⟩

/-- boolean.rs:67-96 `alloc`: `(1 - a) * a = 0`. -/
def alloc (value : Option Bool) : Synth F AllocatedBit := do
  let var ← Zkp.alloc (bitClosure value)
  enforce ((LC.zero.addVar .one).subVar var) (LC.zero.addVar var) LC.zero
  return ⟨var, value⟩

/-- boolean.rs:100-129 `alloc_input`. -/
def allocInput (value : Option Bool) : Synth F AllocatedBit := do
  let var ← Zkp.allocInput (bitClosure value)
  enforce ((LC.zero.addVar .one).subVar var) (LC.zero.addVar var) LC.zero
  return ⟨var, value⟩

/-- The value closure shared by the binary gates (boolean.rs:142-157, 196-211, 236-251, 276-291):
both operands are needed, in this order. -/
def gateClosure (op : Bool → Bool → Bool) (a b : AllocatedBit) : Except SynthesisError F := do
  let x ← okOr a.value
  let y ← okOr b.value
  .ok (boolF (op x y))

/-- The captured `result_value` of a binary gate: set only when the closure runs.
gadgets/src/algebra/boolean.rs:137-156, 191-210, 231-250, 271-290. -/
def gateValue (op : Bool → Bool → Bool) (proving : Bool) (a b : AllocatedBit) : Option Bool :=
  if proving then
    match a.value, b.value with
    | some x, some y => some (op x y)
    | _, _ => none
  else none

/-- boolean.rs:133-183 `xor`: `(a + a) * b = a + b - c`. -/
def xor (a b : AllocatedBit) : Synth F AllocatedBit := do
  let pr ← isProving
  let r ← Zkp.alloc (gateClosure (fun x y => x ^^ y) a b)
  enforce ((LC.zero.addVar a.variable_).addVar a.variable_) (LC.zero.addVar b.variable_)
    (((LC.zero.addVar a.variable_).addVar b.variable_).subVar r)
  return ⟨r, gateValue (fun x y => x ^^ y) pr a b⟩

/-- boolean.rs:187-223 `and`: `a * b = c`. -/
def and (a b : AllocatedBit) : Synth F AllocatedBit := do
  let pr ← isProving
  let r ← Zkp.alloc (gateClosure (fun x y => x && y) a b)
  enforce (LC.zero.addVar a.variable_) (LC.zero.addVar b.variable_) (LC.zero.addVar r)
  return ⟨r, gateValue (fun x y => x && y) pr a b⟩

/-- boolean.rs:226-263 `and_not`: `a * (1 - b) = c`. -/
def andNot (a b : AllocatedBit) : Synth F AllocatedBit := do
  let pr ← isProving
  let r ← Zkp.alloc (gateClosure (fun x y => x && !y) a b)
  enforce (LC.zero.addVar a.variable_) ((LC.zero.addVar .one).subVar b.variable_)
    (LC.zero.addVar r)
  return ⟨r, gateValue (fun x y => x && !y) pr a b⟩

/-- boolean.rs:266-303 `nor`: `(1 - a) * (1 - b) = c`. -/
def nor (a b : AllocatedBit) : Synth F AllocatedBit := do
  let pr ← isProving
  let r ← Zkp.alloc (gateClosure (fun x y => !x && !y) a b)
  enforce ((LC.zero.addVar .one).subVar a.variable_) ((LC.zero.addVar .one).subVar b.variable_)
    (LC.zero.addVar r)
  return ⟨r, gateValue (fun x y => !x && !y) pr a b⟩

end AllocatedBit

/-- boolean.rs:308-317 `Boolean`. -/
inductive Boolean where
  | is (b : AllocatedBit)
  | not_ (b : AllocatedBit)
  | constant (c : Bool)
deriving DecidableEq

namespace Boolean

/-- boolean.rs:320-325 `is_constant`. -/
def isConstant : Boolean → Bool
  | .constant _ => true
  | _ => false

/-- boolean.rs:373-379 `get_value`. -/
def getValue : Boolean → Option Bool
  | .constant c => some c
  | .is v => v.value
  | .not_ v => v.value.map (!·)

/-- boolean.rs:381-395 `lc` with `one = CS::one()`. -/
def lc (b : Boolean) (coeff : F) : LC F :=
  match b with
  | .constant c => if c then LC.zero.addTerm coeff .one else LC.zero
  | .is v => LC.zero.addTerm coeff v.variable_
  | .not_ v => (LC.zero.addTerm coeff .one).subTerm coeff v.variable_

/-- boolean.rs:403-409 `not`. -/
def not : Boolean → Boolean
  | .constant c => .constant (!c)
  | .is v => .not_ v
  | .not_ v => .is v

/-- boolean.rs:327-371 `enforce_equal`. -/
def enforceEqual (a b : Boolean) : Synth F Unit :=
  match a, b with
  | .constant x, .constant y => if x = y then pure () else failS .unsatisfiable
  | .constant true, x => enforce LC.zero LC.zero ((LC.zero.addVar .one).sub (x.lc 1))
  | x, .constant true => enforce LC.zero LC.zero ((LC.zero.addVar .one).sub (x.lc 1))
  | .constant false, x => enforce LC.zero LC.zero (x.lc 1)
  | x, .constant false => enforce LC.zero LC.zero (x.lc 1)
  | x, y => enforce LC.zero LC.zero ((x.lc 1).sub (y.lc 1))

/-- boolean.rs:412-431 `xor`.  The recursive call of the mixed `Is`/`Not` case
(`Boolean::xor(cs, is, &not.not())?.not()`) is unfolded once: its operands are both `Is`. -/
def xor (a b : Boolean) : Synth F Boolean :=
  match a, b with
  | .constant false, x => pure x
  | x, .constant false => pure x
  | .constant true, x => pure x.not
  | x, .constant true => pure x.not
  | .is a, .not_ b => do
      let r ← AllocatedBit.xor a b
      return (Boolean.is r).not
  | .not_ a, .is b => do
      let r ← AllocatedBit.xor b a
      return (Boolean.is r).not
  | .is a, .is b => do return .is (← AllocatedBit.xor a b)
  | .not_ a, .not_ b => do return .is (← AllocatedBit.xor a b)

/-- boolean.rs:434-460 `and`. -/
def and (a b : Boolean) : Synth F Boolean :=
  match a, b with
  | .constant false, _ => pure (.constant false)
  | _, .constant false => pure (.constant false)
  | .constant true, x => pure x
  | x, .constant true => pure x
  | .is a, .not_ b => do return .is (← AllocatedBit.andNot a b)
  | .not_ a, .is b => do return .is (← AllocatedBit.andNot b a)
  | .not_ a, .not_ b => do return .is (← AllocatedBit.nor a b)
  | .is a, .is b => do return .is (← AllocatedBit.and a b)

/-- The precomputed value of boolean.rs:474-480, 580-586. -/
def triValue (op : Bool → Bool → Bool → Bool) (a b c : Boolean) : Option Bool :=
  match a.getValue, b.getValue, c.getValue with
  | some x, some y, some z => some (op x y z)
  | _, _, _ => none

/-- `(a & b) ^ ((!a) & c)` of boolean.rs:477. -/
def chFn (a b c : Bool) : Bool := (a && b) ^^ ((!a) && c)

/-- `(a & b) ^ (a & c) ^ (b & c)` of boolean.rs:583. -/
def majFn (a b c : Bool) : Bool := ((a && b) ^^ (a && c)) ^^ (b && c)

/-- The allocated path of `sha256_ch`, boolean.rs:546-567: `(b - c) * a = ch - c`. -/
def sha256ChAlloc (chValue : Option Bool) (a b c : Boolean) : Synth F Boolean := do
  let ch ← Zkp.alloc (bitClosure chValue)
  enforce ((b.lc 1).sub (c.lc 1)) (a.lc 1) ((LC.zero.addVar ch).sub (c.lc 1))
  return .is ⟨ch, chValue⟩

/-- boolean.rs:463-567 `sha256_ch`. -/
def sha256Ch (a b c : Boolean) : Synth F Boolean :=
  match a, b, c with
  | .constant x, .constant y, .constant z => pure (.constant (chFn x y z))
  | .constant false, _, c => pure c
  | a, .constant false, c => and a.not c
  | a, b, .constant false => and a b
  | a, b, .constant true => do return (← and a b.not).not
  | a, .constant true, c => do return (← and a.not c.not).not
  | a, b, c => sha256ChAlloc (triValue chFn a b c) a b c

/-- The allocated path of `sha256_maj`, boolean.rs:645-684: `maj` is allocated first, then
`bc = b and c`, then `(2bc - b - c) * a = bc - maj`. -/
def sha256MajAlloc (majValue : Option Bool) (a b c : Boolean) : Synth F Boolean := do
  let maj ← Zkp.alloc (bitClosure majValue)
  let bc ← and b c
  enforce ((((bc.lc 1).add (bc.lc 1)).sub (b.lc 1)).sub (c.lc 1)) (a.lc 1)
    ((bc.lc 1).subVar maj)
  return .is ⟨maj, majValue⟩

/-- boolean.rs:570-684 `sha256_maj`. -/
def sha256Maj (a b c : Boolean) : Synth F Boolean :=
  match a, b, c with
  | .constant x, .constant y, .constant z => pure (.constant (majFn x y z))
  | .constant false, b, c => and b c
  | a, .constant false, c => and a c
  | a, b, .constant false => and a b
  | a, b, .constant true => do return (← and a.not b.not).not
  | a, .constant true, c => do return (← and a.not c.not).not
  | .constant true, b, c => do return (← and b.not c.not).not
  | a, b, c => sha256MajAlloc (triValue majFn a b c) a b c

end Boolean

/-- `for .. { AllocatedBit::alloc(cs, b)? }` over a list of optional bits
(boolean.rs:709-718, 759-766; uint32.rs:50-60). -/
def allocBits : List (Option Bool) → Synth F (List AllocatedBit)
  | [] => pure []
  | v :: vs => do
      let b ← AllocatedBit.alloc v
      let bs ← allocBits vs
      return b :: bs

/-- boolean.rs:693-721 `u64_into_boolean_vec_le` (`value` is a `u64` as a natural number). -/
def u64IntoBooleanVecLe (value : Option Nat) : Synth F (List Boolean) := do
  let values : List (Option Bool) := match value with
    | some v => (List.range 64).map fun i => some (v.testBit i)
    | none => List.replicate 64 none
  let bits ← allocBits values
  return bits.map Boolean.is

/-- boolean.rs:732-771 `field_into_allocated_bits_le`.  `sizeInBits = F::size_in_bits()`, `repr` is
`into_repr` as a natural number; the big-endian iteration that skips the leading bits of the
characteristic followed by `.rev()` yields the low `sizeInBits` bits, least significant first. -/
def fieldIntoAllocatedBitsLe (sizeInBits : Nat) (repr : F → Nat) (value : Option F) :
    Synth F (List AllocatedBit) :=
  allocBits (match value with
    | some v => (List.range sizeInBits).map fun i => some ((repr v).testBit i)
    | none => List.replicate sizeInBits none)

/-- boolean.rs:723-730 `field_into_boolean_vec_le`. -/
def fieldIntoBooleanVecLe (sizeInBits : Nat) (repr : F → Nat) (value : Option F) :
    Synth F (List Boolean) := do
  let v ← fieldIntoAllocatedBitsLe sizeInBits repr value
  return v.map Boolean.is

end Zkp
