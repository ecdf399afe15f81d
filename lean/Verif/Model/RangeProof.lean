/- Model of /repo/gadgets/src/operator/rangeproof.rs. -/
import Verif.Model.Cs
import Mathlib.Data.ZMod.Basic
import Mathlib.Algebra.Field.ZMod

namespace Zkp.RangeProof

variable {p : Nat} [Fact p.Prime]

/-- rangeproof.rs:41-58: the packed value `2^n + B - A`, if both operands are there. -/
def packedValue (n : Nat) (lhs rhs : Option (ZMod p)) : Option (ZMod p) :=
  match rhs, lhs with
  | some r, some l => some (2 ^ n + r - l)
  | _, _ => none

/-- rangeproof.rs:60-73: bits `0..=n` of the canonical representative, taken from the `64 * L`-bit
big-endian bit string of the representation; `none` is the index panic when the string is too
short. -/
def alphaBits (L n : Nat) (v : ZMod p) : Option (List (ZMod p)) :=
  if n + 1 ≤ 64 * L then
    some ((List.range (n + 1)).map fun i => if v.val.testBit i then 1 else 0)
  else none

/-- rangeproof.rs:90-95: the number of non-zero bits among the first `n`, as a field element. -/
def sumValue (bits : List (ZMod p)) : ZMod p :=
  bits.foldl (fun s b => if b = 0 then s else s + 1) 0

/-- rangeproof.rs:131-134, 142-145: the sum of variables. -/
def sumLC (vs : List Index) : LC (ZMod p) := vs.foldl (fun lc v => lc.addTerm 1 v) LC.zero

/-- rangeproof.rs:179-184: the combination with doubling coefficients. -/
def packLC (vs : List Index) : LC (ZMod p) :=
  (vs.foldl (fun (s : LC (ZMod p) × ZMod p) v => (s.1.addTerm s.2 v, s.2 + s.2)) (LC.zero, 1)).1

/-- rangeproof.rs:112-198 without the allocation of `less`, which is passed in (the constraints do
not depend on its value). -/
def constraints (lhs rhs twon packed : Index) (alpha : List Index) (leq inv output less : Index) :
    Synth (ZMod p) Unit := do
  enforce (LC.zero.addVar .one) (((LC.zero.addVar twon).addVar rhs).subVar lhs)
    (LC.zero.addVar packed)
  (alpha ++ [leq]).forM fun b =>
    enforce ((LC.zero.addVar .one).subTerm 1 b) (LC.zero.addTerm 1 b) LC.zero
  enforce (LC.zero.addVar inv) (sumLC alpha) (LC.zero.addVar output)
  enforce ((LC.zero.addVar .one).subVar output) (sumLC alpha) LC.zero
  enforce (LC.zero.addVar leq) (LC.zero.addVar output) (LC.zero.addVar less)
  enforce ((LC.zero.addVar .one).subVar output) (LC.zero.addVar output) LC.zero
  enforce (LC.zero.addVar .one) (packLC (alpha ++ [leq])) (LC.zero.addVar packed)
  enforce (LC.zero.addVar less) (LC.zero.addVar .one) (LC.zero.addVar .one)

/-- rangeproof.rs:14-202 `generate_constraints` (order of the `less` allocation relative to the first
constraints is immaterial and moved up).  Returns the variables of `A`, `B` and the public `2^n`
for use in statements. -/
def synth (L n : Nat) (lhsV rhsV : Option (ZMod p)) : Synth (ZMod p) (Index × Index × Index) := do
  let lhs ← alloc (okOr lhsV)
  let rhs ← alloc (okOr rhsV)
  let twon ← allocInput (.ok (2 ^ n))
  let packed ← alloc (okOr (packedValue n lhsV rhsV))
  match alphaBits L n ((packedValue n lhsV rhsV).getD 0) with
  | none => panicS
  | some bits =>
    let alpha ← (bits.take n).mapM fun b => alloc (.ok b)
    let leqV := bits.getD n 0
    let leq ← alloc (.ok leqV)
    let s := sumValue (bits.take n)
    let inv ← alloc (.ok (if s = 0 then 0 else s⁻¹))
    let outV : ZMod p := if s = 0 then 0 else 1
    let output ← alloc (.ok outV)
    let less ← alloc (.ok (if leqV = 0 ∨ outV = 0 then 0 else 1))
    constraints lhs rhs twon packed alpha leq inv output less
    return (lhs, rhs, twon)

end Zkp.RangeProof
