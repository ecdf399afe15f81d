/- Model of the common hash interface, /repo/gadgets/src/hashes/abstract_hash.rs, and its four
implementations (blake2s.rs has none). -/
import Verif.Model.Rescue
import Verif.Model.Sha256

namespace Zkp

variable {F : Type} [Field F]

/-- mimc.rs:163-167 `AbstractHashMimcOutput` (rescue.rs:544-548, poseidon.rs:775-779 alike). -/
structure FieldOut (F : Type) where
  value : Option F
  variable_ : Index

/-- mimc.rs:170-184 `alloc` (rescue.rs:551-565, poseidon.rs:783-796 alike). -/
def FieldOut.alloc (f : Option F) : Synth F (FieldOut F) := do
  let var ← Zkp.alloc (okOr f)
  return ⟨f, var⟩

/-- mimc.rs:186-200 `alloc_input`. -/
def FieldOut.allocInput (f : Option F) : Synth F (FieldOut F) := do
  let var ← Zkp.allocInput (okOr f)
  return ⟨f, var⟩

/-- mimc.rs:222-230 (rescue.rs and poseidon.rs alike): the little-endian bytes of all parameter
values, `AssignmentMissing` if one has none. -/
def paramBytes {p : Nat} (n : Nat) (params : List (FieldOut (ZMod p))) :
    Except SynthesisError (List UInt8) := do
  let vs ← params.mapM fun o => okOr o.value
  return vs.flatMap fun v => leBytes n v.val

/-- mimc.rs:218-239 `hash_enforce`. -/
def Mimc.hashEnforce {p : Nat} [Fact p.Prime] (n : Nat) (k : List (ZMod p))
    (params : List (FieldOut (ZMod p))) : Synth (ZMod p) (FieldOut (ZMod p)) := fun cs =>
  match paramBytes n params with
  | .error e => .error e
  | .ok bytes => (do
    let r ← Mimc.mimc n k (some bytes)
    FieldOut.alloc r : Synth (ZMod p) _) cs

/-- rescue.rs:588-607 `hash_enforce`. -/
def Rescue.hashEnforce {p : Nat} [Fact p.Prime] (n : Nat) (rc mds : List (List (ZMod p)))
    (params : List (FieldOut (ZMod p))) : Synth (ZMod p) (FieldOut (ZMod p)) := fun cs =>
  match paramBytes n params with
  | .error e => .error e
  | .ok bytes => (do
    let r ← Rescue.rescue n rc mds bytes
    FieldOut.alloc (some r) : Synth (ZMod p) _) cs

/-- poseidon.rs:819-838 `hash_enforce`. -/
def Poseidon.hashEnforce {p : Nat} [Fact p.Prime] (n : Nat) (ark mds : List (List (ZMod p)))
    (params : List (FieldOut (ZMod p))) : Synth (ZMod p) (FieldOut (ZMod p)) := fun cs =>
  match paramBytes n params with
  | .error e => .error e
  | .ok bytes => (do
    let r ← Poseidon.poseidon n ark mds bytes
    FieldOut.alloc (some r) : Synth (ZMod p) _) cs

/-- sha256.rs:258-262 `AbstractHashSha256Output`. -/
structure BitsOut where
  value : Option (List Boolean)
  vars : List Index

/-- `Result::unwrap`: an error becomes a panic. gadgets/src/hashes/sha256.rs:357. -/
def unwrapS {α : Type} (m : Synth F α) : Synth F α := fun cs =>
  match m cs with
  | .ok r => .ok r
  | .error _ => .error .panic

/-- sha256.rs:338-365 `hash_enforce`: hash the Booleans of the parameters, then allocate *fresh*
bits with the same values and return their variables. -/
def Sha.hashEnforce (cap : Nat) (params : List BitsOut) : Synth F BitsOut := fun cs =>
  match params.mapM fun o => o.value with
  | none => .error .assignmentMissing
  | some inputs => (do
    let booleans ← Sha.sha256 cap inputs.flatten
    let vars ← booleans.mapM fun b => do
      let a ← unwrapS (AllocatedBit.alloc b.getValue)
      return a.variable_
    return (⟨some booleans, vars⟩ : BitsOut) : Synth F BitsOut) cs

end Zkp
