/- Model of the Merkle membership circuits of the examples, /repo/gadgets/examples/
merkle_tree_sha256.rs and merkle_tree_mimc.rs, and of the SHA-256 side of the output interface,
/repo/gadgets/src/hashes/sha256.rs:258-330. -/
import Verif.Model.HashIface
import Verif.Model.Cbmt

namespace Zkp

variable {F : Type} [Field F]

/-- sha256.rs:269-271 (and :291-293; merkle_tree_sha256.rs:97-99): the bits of the bytes, most
significant first. -/
def hashBits (bytes : List UInt8) : List Bool :=
  bytes.flatMap fun byte => (List.range 8).reverse.map fun i => byte.toNat.testBit i

/-- sha256.rs:265-284 `AbstractHashSha256Output::alloc`: one allocated bit per bit. -/
def BitsOut.alloc (bytes : List UInt8) : Synth F BitsOut := do
  let bits ← (hashBits bytes).mapM fun v => AllocatedBit.alloc (some v)
  return ⟨some (bits.map .is), bits.map (·.variable_)⟩

/-- sha256.rs:286-307 `alloc_input`. -/
def BitsOut.allocInput (bytes : List UInt8) : Synth F BitsOut := do
  let bits ← (hashBits bytes).mapM fun v => AllocatedBit.allocInput (some v)
  return ⟨some (bits.map .is), bits.map (·.variable_)⟩

/-- sha256.rs:318-329 `get_variable_values`. The two `unwrap`s – an output without a value, a bit
without a value – are represented by a missing value, on which the allocation that follows fails;
`alloc`, `alloc_input` and `hash_enforce` never produce one. -/
def BitsOut.values (o : BitsOut) : List (Option F) :=
  match o.value with
  | none => [none]
  | some bs => bs.map fun b => b.getValue.map fun x => if x then 1 else 0

/-- sha256.rs:313-329, :335-365: the interface of `AbstractHashSha256`. -/
def shaHash (cap : Nat) : CbmtGadget.HashI F BitsOut :=
  ⟨(·.vars), BitsOut.values, Sha.hashEnforce cap⟩

/-- mimc.rs:205-213, :218-239: the interface of `AbstractHashMimc`. -/
def mimcHash {p : Nat} [Fact p.Prime] (n : Nat) (k : List (ZMod p)) :
    CbmtGadget.HashI (ZMod p) (FieldOut (ZMod p)) :=
  ⟨fun o => [o.variable_], fun o => [o.value], Mimc.hashEnforce n k⟩

/-- merkle_tree_sha256.rs:35-71 `generate_constraints`: the root as public input, then the leaf and
the siblings, then the membership gadget; every error is unwrapped. -/
def merkleSha (cap : Nat) (index : Nat) (lemmas : List (List UInt8)) (root leaf : List UInt8) :
    Synth F Unit := do
  let varRoot ← unwrapS (BitsOut.allocInput root)
  let varLeaf ← unwrapS (BitsOut.alloc leaf)
  let varLemmas ← lemmas.mapM fun v => unwrapS (BitsOut.alloc v)
  unwrapS (CbmtGadget.setMembership (shaHash cap) index varLemmas varRoot varLeaf)

/-- merkle_tree_mimc.rs:15-25 `MergeMimc::merge`: the hash of the bytes of both; `hash` panics on an
empty byte string only. -/
def mergeMimc {p : Nat} [Fact p.Prime] (n : Nat) (k : List (ZMod p)) (l r : ZMod p) : ZMod p :=
  (Mimc.hash n (leBytes n l.val ++ leBytes n r.val) k).getD 0

/-- merkle_tree_mimc.rs:34-62 `generate_constraints`. -/
def merkleMimc {p : Nat} [Fact p.Prime] (n : Nat) (k : List (ZMod p)) (index : Nat)
    (lemmas : List (ZMod p)) (root leaf : Option (ZMod p)) : Synth (ZMod p) Unit := do
  let varRoot ← unwrapS (FieldOut.allocInput root)
  let varLeaf ← unwrapS (FieldOut.alloc leaf)
  let varLemmas ← lemmas.mapM fun v => unwrapS (FieldOut.alloc (some v))
  unwrapS (CbmtGadget.setMembership (mimcHash n k) index varLemmas varRoot varLeaf)

end Zkp
