/- Model of the command-line tool: hexadecimal text (/repo/cli/src/zkp_prove.rs, zkp_verify.rs) and the
demonstration circuits (/repo/cli/src/circuits). -/
import Verif.Model.Mimc

namespace Zkp.Cli

/-! Text is the list of its UTF-8 bytes, as in Rust's `str`. -/

/-- The character of a digit below 16 in `{:02x}` (external crate `core`, `fmt::LowerHex`). -/
def hexDigit (d : Nat) : Nat := if d < 10 then 48 + d else 97 + (d - 10)

/-- cli/src/zkp_prove.rs:128-132 `to_hex`. -/
def toHex (v : List UInt8) : List Nat := v.flatMap fun b => [hexDigit (b.toNat / 16), hexDigit (b.toNat % 16)]

/-- `char::to_digit(16)` on one byte (external crate `core`). -/
def toDigit (c : Nat) : Option Nat :=
  if 48 ≤ c ∧ c ≤ 57 then some (c - 48)
  else if 97 ≤ c ∧ c ≤ 102 then some (c - 87)
  else if 65 ≤ c ∧ c ≤ 70 then some (c - 55)
  else none

/-- `u8::from_str_radix(s, 16)` on a two-byte string (external crate `core`): a leading `+` is skipped;
`-` is not accepted for unsigned types.  Two digits cannot overflow. -/
def parseU8 (a b : Nat) : Option UInt8 :=
  if a = 43 then (toDigit b).map UInt8.ofNat
  else match toDigit a, toDigit b with
    | some x, some y => some (UInt8.ofNat (x * 16 + y))
    | _, _ => none

/-- Result of `from_hex`: the bytes, an error, or the panic of a slice that cuts a character.
cli/src/zkp_verify.rs:117. -/
inductive HexResult where
  | ok (v : List UInt8)
  | err
  | panic
  deriving DecidableEq

/-- Whether a slice may start before this byte: not a UTF-8 continuation byte. -/
def boundary : List Nat → Bool
  | [] => true
  | b :: _ => !(128 ≤ b && b < 192)

/-- cli/src/zkp_verify.rs:124-127: the loop over the pairs.  (`s` starts at a boundary.) -/
def fromHexLoop : List Nat → List UInt8 → HexResult
  | a :: b :: rest, acc =>
    if boundary rest then
      match parseU8 a b with
      | some x => fromHexLoop rest (acc ++ [x])
      | none => .err
    else .panic
  | _, acc => .ok acc

/-- cli/src/zkp_verify.rs:117-130 `from_hex`. -/
def fromHex (s : List Nat) : HexResult :=
  if s.length % 2 ≠ 0 then .err else fromHexLoop s []

/-- cli/src/circuits/hash.rs:13-31 `Hash::generate_constraints`; returns the image variable (dropped
by the Rust code). -/
def hashCircuit {p : Nat} [Fact p.Prime] (n : Nat) (k : List (ZMod p)) (image : Option (List UInt8)) :
    Synth (ZMod p) Index := do
  let value ← Mimc.mimc n k image
  allocInput (okOr value)

/-- cli/src/circuits/mini.rs:26-33: the constraints. -/
def miniLoop {F : Type} [Field F] (x y z : Index) : Nat → Synth F Unit
  | 0 => return ()
  | num + 1 => do
    enforce (LC.zero.addVar x) ((LC.zero.addVar y).addTerm 2 .one) (LC.zero.addVar z)
    miniLoop x y z num

/-- cli/src/circuits/mini.rs:13-37 `Mini::generate_constraints`; returns the variables (dropped by the
Rust code). -/
def mini {F : Type} [Field F] (x y z : Option F) (num : Nat) : Synth F (Index × Index × Index) := do
  let vx ← alloc (okOr x)
  let vy ← alloc (okOr y)
  let vz ← allocInput (okOr z)
  miniLoop vx vy vz num
  return (vx, vy, vz)

end Zkp.Cli
