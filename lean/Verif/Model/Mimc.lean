/- Model of /repo/gadgets/src/hashes/mimc.rs and of the byte-to-field splitting it shares with
rescue.rs and poseidon.rs. -/
import Verif.Model.Cs
import Verif.Spec.Words
import Mathlib.Algebra.Field.ZMod

namespace Zkp

/-- mimc.rs:66-77 (identical code: rescue.rs:371-382, poseidon.rs:589-600): split a byte string into
pieces of `n = NUM_LIMBS * 8` bytes, the last one possibly shorter; read each as a little-endian
integer, `0` if the read fails (short piece); convert with `from_repr`, `0` if it is not below the
modulus.  `F::BigInt::read` and `F::from_repr` are external (trusted base): read exactly `n` bytes,
accept exactly the integers below `p`. -/
def bytesToField (p n : Nat) (b : List UInt8) : List (ZMod p) :=
  (chunks n b).map fun c =>
    let repr := match readLe n c with
      | some (v, _) => v
      | none => 0
    if repr < p then (repr : ZMod p) else 0

variable {F : Type} [Field F]

namespace Mimc

/-- mimc.rs:13 `MIMC_ROUNDS`. -/
def ROUNDS : Nat := 322

/-- One iteration of mimc.rs:50-59. -/
def blockStep (k : List F) (s : F × F) (i : Nat) : F × F :=
  let tmp1 := s.1 + k.getD i 0
  let tmp2 := tmp1 * tmp1
  let tmp2 := tmp2 * tmp1
  let tmp2 := tmp2 + s.2
  (tmp2, s.1)

/-- mimc.rs:49-62 `mimc_block`.  `k` is the array of 322 round constants; they come from a seeded
random generator (mimc.rs:19-43, external), so everything is stated for an arbitrary array. -/
def block (xl xr : F) (k : List F) : F := ((List.range ROUNDS).foldl (blockStep k) (xl, xr)).1

/-- mimc.rs:79-90, the part of `mimc_hash` after splitting the bytes: `none` is the index-underflow
panic of `v[v.len() - 1]` on an empty vector.  Result `(xl, xr, h)`. -/
def hashElems (k v : List F) : Option (F × F × F) :=
  match v.getLast? with
  | none => none
  | some xr =>
    let (xl, h) := v.zipIdx.foldl
      (fun (s : F × F) (e : F × Nat) =>
        ((if e.2 = v.length - 1 then s.2 else s.1), block s.2 e.1 k)) (0, 0)
    some (xl, xr, h)

/-- mimc.rs:65-91 `mimc_hash`. -/
def hashBytes {p : Nat} [Fact p.Prime] (n : Nat) (b : List UInt8) (k : List (ZMod p)) :
    Option (ZMod p × ZMod p × ZMod p) := hashElems k (bytesToField p n b)

/-- mimc.rs:93-95 `hash`. -/
def hash {p : Nat} [Fact p.Prime] (n : Nat) (b : List UInt8) (k : List (ZMod p)) :
    Option (ZMod p) := (hashBytes n b k).map fun r => r.2.2

/-- Loop state of the circuit: the two variables and their values. gadgets/src/hashes/mimc.rs:102-155. -/
structure St (F : Type) where
  xl : Index
  xr : Index
  xlValue : Option F
  xrValue : Option F

/-- mimc.rs:122-157, one round of the circuit. -/
def round (k : List F) (s : St F) (i : Nat) : Synth F (St F) := do
  let c := k.getD i 0
  let tmpValue := s.xlValue.map fun xl => (xl + c) * (xl + c)
  let tmp ← alloc (okOr tmpValue)
  enforce ((LC.zero.addVar s.xl).addTerm c .one) ((LC.zero.addVar s.xl).addTerm c .one)
    (LC.zero.addVar tmp)
  let newXl := match s.xlValue, tmpValue, s.xrValue with
    | some xl, some t, some xr => some ((xl + c) * t + xr)
    | _, _, _ => none
  let varNew ← alloc (okOr newXl)
  enforce (LC.zero.addVar tmp) ((LC.zero.addVar s.xl).addTerm c .one)
    ((LC.zero.addVar varNew).subVar s.xr)
  return ⟨varNew, s.xl, newXl, s.xlValue⟩

/-- mimc.rs:111-157: the circuit from given preimage values; returns the two preimage variables and
the final state (the Rust code drops both). -/
def circuit (k : List F) (xl xr : Option F) : Synth F ((Index × Index) × St F) := do
  let varXl ← alloc (okOr xl)
  let varXr ← alloc (okOr xr)
  let s ← (List.range ROUNDS).foldlM (round k) ⟨varXl, varXr, xl, xr⟩
  return ((varXl, varXr), s)

/-- mimc.rs:97-160 `mimc`. -/
def mimc {p : Nat} [Fact p.Prime] (n : Nat) (k : List (ZMod p)) (b : Option (List UInt8)) :
    Synth (ZMod p) (Option (ZMod p)) :=
  match b with
  | some bytes =>
    match hashBytes n bytes k with
    | none => panicS
    | some (xl, xr, image) => do
      let _ ← circuit k (some xl) (some xr)
      return some image
  | none => do
    let _ ← circuit k none none
    return none

end Mimc
end Zkp
