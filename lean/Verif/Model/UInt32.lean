/- Model of /repo/gadgets/src/operator/multieq.rs and /repo/gadgets/src/algebra/uint32.rs. -/
import Verif.Model.Boolean

namespace Zkp

variable {F : Type} [Field F]

/-! ### MultiEq -/

/-- multieq.rs:6-12 `MultiEq`.  (`ops` only feeds annotations.) -/
structure MultiEq (F : Type) where
  cs : CS F
  ops : Nat
  bitsUsed : Nat
  lhs : LC F
  rhs : LC F

/-- Gadget code running on top of a `MultiEq`.
gadgets/src/operator/multieq.rs:10-60, gadgets/src/algebra/uint32.rs:287-365. -/
abbrev MSynth (F : Type) := StateT (MultiEq F) (Except SynthesisError)

/-- multieq.rs:15-23 `new`. -/
def MultiEq.new (cs : CS F) : MultiEq F := ⟨cs, 0, 0, LC.zero, LC.zero⟩

/-- multieq.rs:25-39 `accumulate`: `lhs * 1 = rhs`, then reset. -/
def MultiEq.accumulate (m : MultiEq F) : MultiEq F :=
  { cs := { m.cs with constraints :=
      m.cs.constraints ++ [⟨m.lhs, LC.zero.addVar .one, m.rhs⟩] }
    ops := m.ops + 1
    bitsUsed := 0
    lhs := LC.zero
    rhs := LC.zero }

/-- multieq.rs:41-57 `enforce_equal`; `cap = F::Params::CAPACITY`.  `none` is the failed
`assert!` of line 51. -/
def MultiEq.enforceEqual (cap : Nat) (numBits : Nat) (lhs rhs : LC F) (m : MultiEq F) :
    Option (MultiEq F) :=
  let m := if cap ≤ m.bitsUsed + numBits then m.accumulate else m
  if m.bitsUsed + numBits < cap then
    let coeff : F := 2 ^ m.bitsUsed
    some { m with
      lhs := m.lhs.addScaled coeff lhs
      rhs := m.rhs.addScaled coeff rhs
      bitsUsed := m.bitsUsed + numBits }
  else none

/-- multieq.rs:60-66 `Drop`. -/
def MultiEq.drop (m : MultiEq F) : CS F :=
  if m.bitsUsed > 0 then m.accumulate.cs else m.cs

/-- multieq.rs:68-123: `alloc`, `alloc_input`, `enforce` are forwarded to the inner system. -/
def MSynth.lift {α : Type} (x : Synth F α) : MSynth F α := fun m =>
  match x m.cs with
  | .error e => .error e
  | .ok (a, cs) => .ok (a, { m with cs := cs })

/-- `cs.get_root().enforce_equal(..)`. gadgets/src/algebra/uint32.rs:360. -/
def MSynth.enforceEqual (cap numBits : Nat) (lhs rhs : LC F) : MSynth F Unit := fun m =>
  match m.enforceEqual cap numBits lhs rhs with
  | none => .error .panic
  | some m => .ok ((), m)

/-- `MultiEq::new(cs)`, run the body, drop the batcher at the end of scope (e.g. sha256.rs:185-255).
On an error inside the body the whole synthesis fails. -/
def MSynth.scoped {α : Type} (x : MSynth F α) : Synth F α := fun cs =>
  match x (MultiEq.new cs) with
  | .error e => .error e
  | .ok (a, m) => .ok (a, m.drop)

/-! ### UInt32 -/

/-- uint32.rs:9-16 `UInt32`: bits least significant first, cached value. -/
structure UInt32G where
  bits : List Boolean
  value : Option (BitVec 32)

namespace UInt32G

/-- uint32.rs:20-32 `constant`. -/
def constant (v : BitVec 32) : UInt32G :=
  ⟨(List.range 32).map fun i => .constant (v.getLsbD i), some v⟩

/-- uint32.rs:35-64 `alloc`. -/
def alloc (value : Option (BitVec 32)) : Synth F UInt32G := do
  let values : List (Option Bool) := match value with
    | some v => (List.range 32).map fun i => some (v.getLsbD i)
    | none => List.replicate 32 none
  let bits ← allocBits values
  return ⟨bits.map Boolean.is, value⟩

/-- uint32.rs:66-69 `into_bits_be`. -/
def intoBitsBe (u : UInt32G) : List Boolean := u.bits.reverse

/-- uint32.rs:95-98 `into_bits`. -/
def intoBits (u : UInt32G) : List Boolean := u.bits

/-- The value loop of uint32.rs:74-87 (and 107-129, which spells out `get_value`): shift left, or
in the next bit; an unknown bit makes the value unknown for good. -/
def bitsValue (bits : List Boolean) : Option (BitVec 32) :=
  bits.foldl (fun acc b =>
    match acc, b.getValue with
    | some v, some true => some ((v <<< 1) ||| 1)
    | some v, some false => some (v <<< 1)
    | _, _ => none) (some 0)

/-- uint32.rs:71-93 `from_bits_be`; `none` is the failed length assertion. -/
def fromBitsBe (bits : List Boolean) : Option UInt32G :=
  if bits.length = 32 then some ⟨bits.reverse, bitsValue bits⟩ else none

/-- uint32.rs:100-137 `from_bits`; `none` is the failed length assertion. -/
def fromBits (bits : List Boolean) : Option UInt32G :=
  if bits.length = 32 then some ⟨bits, bitsValue bits.reverse⟩ else none

/-- uint32.rs:139-155 `rotr`. -/
def rotr (u : UInt32G) (by_ : Nat) : UInt32G :=
  let k := by_ % 32
  ⟨((u.bits.drop k) ++ u.bits).take 32, u.value.map fun v => v.rotateRight k⟩

/-- uint32.rs:157-175 `shr` (the infinite `cycle()` of `false` is cut to 32, enough for `take(32)`). -/
def shr (u : UInt32G) (by_ : Nat) : UInt32G :=
  let k := by_ % 32
  ⟨((u.bits.drop k) ++ List.replicate 32 (Boolean.constant false)).take 32,
   u.value.map fun v : BitVec 32 => v >>> k⟩

/-- `a.zip(b).zip(c).map(|..| f(..)?).collect()` of uint32.rs:197-204. -/
def mapM3 (f : Boolean → Boolean → Boolean → Synth F Boolean) :
    List Boolean → List Boolean → List Boolean → Synth F (List Boolean)
  | a :: as, b :: bs, c :: cs => do
      let r ← f a b c
      let rs ← mapM3 f as bs cs
      return r :: rs
  | _, _, _ => pure []

/-- uint32.rs:177-210 `triop`. -/
def triop (triFn : BitVec 32 → BitVec 32 → BitVec 32 → BitVec 32)
    (circuitFn : Boolean → Boolean → Boolean → Synth F Boolean) (a b c : UInt32G) :
    Synth F UInt32G := do
  let newValue := match a.value, b.value, c.value with
    | some x, some y, some z => some (triFn x y z)
    | _, _, _ => none
  let bits ← mapM3 circuitFn a.bits b.bits c.bits
  return ⟨bits, newValue⟩

/-- uint32.rs:213-227 `sha256_maj`. -/
def sha256Maj (a b c : UInt32G) : Synth F UInt32G :=
  triop (fun a b c => ((a &&& b) ^^^ (a &&& c)) ^^^ (b &&& c)) Boolean.sha256Maj a b c

/-- uint32.rs:230-244 `sha256_ch`. -/
def sha256Ch (a b c : UInt32G) : Synth F UInt32G :=
  triop (fun a b c => (a &&& b) ^^^ ((~~~a) &&& c)) Boolean.sha256Ch a b c

/-- `zip` + `map(Boolean::xor)` of uint32.rs:256-262. -/
def xorBits : List Boolean → List Boolean → Synth F (List Boolean)
  | a :: as, b :: bs => do
      let r ← Boolean.xor a b
      let rs ← xorBits as bs
      return r :: rs
  | _, _ => pure []

/-- uint32.rs:246-268 `xor`. -/
def xor (a b : UInt32G) : Synth F UInt32G := do
  let newValue := match a.value, b.value with
    | some x, some y => some (x ^^^ y)
    | _, _ => none
  let bits ← xorBits a.bits b.bits
  return ⟨bits, newValue⟩

/-- Inner loop of `addmany`, uint32.rs:311-318: add the bits of one operand with doubling
coefficients, tracking `all_constants`. -/
def addOperandBits : List Boolean → LC F × Bool → F → LC F × Bool
  | [], st, _ => st
  | b :: bs, (lc, ac), coeff => addOperandBits bs (lc.add (b.lc coeff), ac && b.isConstant)
      (coeff + coeff)

/-- Outer loop of `addmany`, uint32.rs:295-319.  The `u64` accumulator cannot overflow (at most ten
32-bit summands), so it is a natural number. -/
def addOperands : List UInt32G → Option Nat × LC F × Bool → Option Nat × LC F × Bool
  | [], st => st
  | op :: ops, (rv, lc, ac) =>
    let rv' := match op.value with
      | some v => rv.map (· + v.toNat)
      | none => none
    let (lc', ac') := addOperandBits op.bits (lc, ac) 1
    addOperands ops (rv', lc', ac')

/-- The result loop of `addmany`, uint32.rs:338-356: allocate one bit per bit of `max_value`.
Returns the bits, the result combination and the number `i` of bits. -/
def addResultBits (rv : Option Nat) (maxValue i : Nat) (coeff : F) (rlc : LC F) :
    Synth F (List Boolean × LC F × Nat) :=
  if h : maxValue = 0 then pure ([], rlc, i)
  else do
    let b ← AllocatedBit.alloc (rv.map fun v => v.testBit i)
    let (bits, rlc', n) ← addResultBits rv (maxValue / 2) (i + 1) (coeff + coeff)
      (rlc.addTerm coeff b.variable_)
    return (.is b :: bits, rlc', n)
termination_by maxValue
decreasing_by omega

/-- uint32.rs:271-369 `addmany`.  `cap + 1 = F::size_in_bits()`. -/
def addmany (cap : Nat) (operands : List UInt32G) : MSynth F UInt32G := fun m =>
  -- assertions, uint32.rs:279-281
  if ¬ (64 ≤ cap + 1) ∨ ¬ (2 ≤ operands.length) ∨ ¬ (operands.length ≤ 10) then .error .panic
  else
    let maxValue := operands.length * (2 ^ 32 - 1)
    let (resultValue, lc, allConstants) := addOperands operands (some 0, LC.zero, true)
    let modularValue : Option (BitVec 32) := resultValue.map fun v => BitVec.ofNat 32 v
    match allConstants, modularValue with
    | true, some mv => .ok (constant mv, m)
    | _, _ =>
      (do
        let (bits, rlc, n) ← MSynth.lift (addResultBits resultValue maxValue 0 1 LC.zero)
        MSynth.enforceEqual cap n lc rlc
        return ⟨bits.take 32, modularValue⟩ : MSynth F UInt32G) m

end UInt32G
end Zkp
