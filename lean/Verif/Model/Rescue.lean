/- Models of /repo/gadgets/src/hashes/rescue.rs and poseidon.rs.  The round constants and MDS
matrices (string tables in the source) are parameters: everything is stated for arbitrary tables. -/
import Verif.Model.Mimc

namespace Zkp

variable {F : Type} [Field F]

/-- The bits yielded by ark-ff's `BitIteratorBE` over 64-bit limbs stored least significant limb
first: most significant bit first, 64 per limb (external, trusted base). -/
def bitIteratorBE (limbs : List Nat) : List Bool :=
  limbs.reverse.flatMap fun l => (List.range 64).reverse.map fun i => l.testBit i

/-- The integer written by 64-bit limbs; `Field::pow` raises to this power (external). -/
def limbsVal (limbs : List Nat) : Nat := limbs.foldr (fun l n => l + 2 ^ 64 * n) 0

namespace Pow

/-- Loop state of `pow_with_constraint`: `found_one`, `res_value`, `res`. rescue.rs:499-504, poseidon.rs:730-735. -/
structure St (F : Type) where
  found : Bool
  resValue : F
  res : Index

/-- Loop body, rescue.rs:501-539 and poseidon.rs:732-770 (identical).  Note line 535/766:
`res_value = tmp_value` discards the product just computed. -/
def step (stateValue : F) (state : Index) (s : St F) (i : Bool) : Synth F (St F) :=
  if !s.found && !i then pure s
  else do
    let tmpValue := s.resValue * s.resValue
    let tmp ← alloc (.ok tmpValue)
    enforce (LC.zero.addVar s.res) (LC.zero.addVar s.res) (LC.zero.addVar tmp)
    if i then do
      let tmp2Value := tmpValue * stateValue
      let tmp2 ← alloc (.ok tmp2Value)
      enforce (LC.zero.addVar tmp) (LC.zero.addVar state) (LC.zero.addVar tmp2)
      return ⟨true, tmpValue, tmp2⟩
    else return ⟨true, tmpValue, tmp⟩

/-- rescue.rs:489-541 and poseidon.rs:720-772 `pow_with_constraint` (identical): the accumulator
starts at zero (line 496/727). -/
def powWithConstraint (stateValue : F) (state : Index) (exp : List Nat) : Synth F (F × Index) := do
  let res ← alloc (.ok 0)
  let s ← (bitIteratorBE exp).foldlM (step stateValue state) ⟨false, 0, res⟩
  return (s.resValue, s.res)

end Pow

/-- A state element of the circuits: value and variable. rescue.rs:405-464, poseidon.rs:630-706. -/
abbrev Cell (F : Type) := F × Index

/-- The mixing layer shared by rescue.rs:442-464 and poseidon.rs:669-706: for each row, a zero
accumulator variable, and for each column a fresh variable for the matrix entry (unconstrained) and
the constraint `entry * state[k] = tmp4 - tmp2`.  All accumulators are allocated first. -/
def mixRow (state : List (Cell F)) (row : List F) (acc : Cell F) : Synth F (Cell F) :=
  (List.range 3).foldlM (fun (acc : Cell F) k => do
    let m := row.getD k 0
    let s := state.getD k (0, .one)
    let tmp3 ← alloc (.ok m)
    let tmp4Value := m * s.1 + acc.1
    let tmp4 ← alloc (.ok tmp4Value)
    enforce (LC.zero.addVar tmp3) (LC.zero.addVar s.2) ((LC.zero.addVar tmp4).subVar acc.2)
    return (tmp4Value, tmp4)) acc

/-- See `mixRow`. rescue.rs:442-464, poseidon.rs:669-706. -/
def mixLayer (mds : List (List F)) (state : List (Cell F)) : Synth F (List (Cell F)) := do
  let accs ← (List.range 3).mapM fun _ => do
    let v ← alloc (.ok 0)
    return ((0, v) : Cell F)
  (mds.zip accs).mapM fun e => mixRow state e.1 e.2

/-- Adding a row of constants, rescue.rs:417-430 and 465-477, poseidon.rs:639-653. -/
def addConstants (c : List F) (state : List (Cell F)) : Synth F (List (Cell F)) :=
  (state.zip c).mapM fun e => do
    let v := e.1.1 + e.2
    let tmp ← alloc (.ok v)
    enforce ((LC.zero.addVar e.1.2).addTerm e.2 .one) (LC.zero.addTerm 1 .one) (LC.zero.addVar tmp)
    return (v, tmp)

namespace Rescue

/-- rescue.rs:20 `RESCUE_ROUNDS`. poseidon.rs:22. -/
def ROUNDS : Nat := 22

/-- rescue.rs:24 `ALPH`. -/
def ALPH : List Nat := [5]

/-- rescue.rs:25-30 `INVALPH`. -/
def INVALPH : List Nat :=
  [0xcfe7f7a98ccccccd, 0x535cb9d394945a0d, 0x93736af8679aad17, 0x26b6a528b427b354]

/-- rescue.rs:349-352. -/
def exponent (i : Nat) : List Nat := if i % 2 = 1 then INVALPH else ALPH

/-- rescue.rs:348-363, one native half-round: powers, matrix, constants. -/
def halfRound (rc mds : List (List F)) (state : List F) (i : Nat) : List F :=
  let state := state.map fun x => x ^ limbsVal (exponent i)
  (List.range 3).map fun j =>
    ((List.range 3).foldl (fun t k => t + (mds.getD j []).getD k 0 * state.getD k 0) 0) +
      (rc.getD (i + 1) []).getD j 0

/-- rescue.rs:337-367 `rescue_block`. -/
def block (rc mds : List (List F)) (xl xr : F) : F :=
  let state := (List.range 3).map fun i => [xl, xr, 0].getD i 0 + (rc.getD 0 []).getD i 0
  ((List.range (2 * ROUNDS)).foldl (halfRound rc mds) state).getD 0 0

/-- rescue.rs:370-397 `rescue_hash` after splitting (same shape as `Mimc.hashElems`). -/
def hashElems (rc mds : List (List F)) (v : List F) : Option (F × F × F) :=
  match v.getLast? with
  | none => none
  | some xr =>
    let (xl, h) := v.zipIdx.foldl
      (fun (s : F × F) (e : F × Nat) =>
        ((if e.2 = v.length - 1 then s.2 else s.1), block rc mds s.2 e.1)) (0, 0)
    some (xl, xr, h)

/-- rescue.rs:432-478, one half-round of the circuit. -/
def circuitRound (rc mds : List (List F)) (state : List (Cell F)) (i : Nat) :
    Synth F (List (Cell F)) := do
  let state ← state.mapM fun e => Pow.powWithConstraint e.1 e.2 (exponent i)
  let state ← mixLayer mds state
  addConstants (rc.getD (i + 1) []) state

/-- rescue.rs:409-486: the circuit from the preimage values; returns the public output variable. -/
def circuit (rc mds : List (List F)) (xl xr : F) : Synth F Index := do
  let varXl ← alloc (.ok xl)
  let varXr ← alloc (.ok xr)
  let varThree ← alloc (.ok 0)
  let state ← addConstants (rc.getD 0 []) [(xl, varXl), (xr, varXr), (0, varThree)]
  let state ← (List.range (2 * ROUNDS)).foldlM (circuitRound rc mds) state
  let s0 := state.getD 0 (0, .one)
  let output ← allocInput (.ok s0.1)
  enforce (LC.zero.addTerm 1 .one) (LC.zero.addVar s0.2) (LC.zero.addVar output)
  return output

/-- rescue.rs:402-487 `rescue`. -/
def rescue {p : Nat} [Fact p.Prime] (n : Nat) (rc mds : List (List (ZMod p))) (b : List UInt8) :
    Synth (ZMod p) (ZMod p) :=
  match hashElems rc mds (bytesToField p n b) with
  | none => panicS
  | some (xl, xr, image) => do
    let _ ← circuit rc mds xl xr
    return image

end Rescue

namespace Poseidon

/-- poseidon.rs:18-22. -/
def RF : Nat := 8
/-- poseidon.rs:19. -/
def RP : Nat := 83
def ROUNDS : Nat := RF + RP

/-- poseidon.rs:25 `ALPH`. -/
def ALPH : List Nat := [5]

/-- poseidon.rs:560 and 655: `i < RF/2 || i > RF/2` selects a full round. -/
def isFull (i : Nat) : Bool := decide (i < RF / 2) || decide (i > RF / 2)

/-- poseidon.rs:555-583, one native round. -/
def round (ark mds : List (List F)) (state : List F) (i : Nat) : List F :=
  let state := (List.range 3).map fun j => state.getD j 0 + (ark.getD i []).getD j 0
  let state := if isFull i then state.map fun x => x ^ limbsVal ALPH
    else state.set 2 (state.getD 2 0 ^ limbsVal ALPH)
  (List.range 3).map fun j =>
    (List.range 3).foldl (fun t k => t + (mds.getD j []).getD k 0 * state.getD k 0) 0

/-- poseidon.rs:553-586 `poseidon_block`. -/
def block (ark mds : List (List F)) (xl xr : F) : F :=
  ((List.range ROUNDS).foldl (round ark mds) [xl, xr, 0]).getD 0 0

/-- poseidon.rs:588-614 `poseidon_hash` after splitting. -/
def hashElems (ark mds : List (List F)) (v : List F) : Option (F × F × F) :=
  match v.getLast? with
  | none => none
  | some xr =>
    let (xl, h) := v.zipIdx.foldl
      (fun (s : F × F) (e : F × Nat) =>
        ((if e.2 = v.length - 1 then s.2 else s.1), block ark mds s.2 e.1)) (0, 0)
    some (xl, xr, h)

/-- poseidon.rs:655-667, the power layer of the circuit. -/
def sboxLayer (state : List (Cell F)) (i : Nat) : Synth F (List (Cell F)) :=
  if isFull i then state.mapM fun e => Pow.powWithConstraint e.1 e.2 ALPH
  else do
    let e := state.getD 2 (0, .one)
    let r ← Pow.powWithConstraint e.1 e.2 ALPH
    return state.set 2 r

/-- poseidon.rs:636-707, one round of the circuit. -/
def circuitRound (ark mds : List (List F)) (state : List (Cell F)) (i : Nat) :
    Synth F (List (Cell F)) := do
  let state ← addConstants (ark.getD i []) state
  let state ← sboxLayer state i
  mixLayer mds state

/-- poseidon.rs:627-717: the circuit from the preimage values; returns the public output. -/
def circuit (ark mds : List (List F)) (xl xr : F) : Synth F Index := do
  let varXl ← alloc (.ok xl)
  let varXr ← alloc (.ok xr)
  let varThree ← alloc (.ok 0)
  let state ← (List.range ROUNDS).foldlM (circuitRound ark mds)
    [(xl, varXl), (xr, varXr), (0, varThree)]
  let s0 := state.getD 0 (0, .one)
  let output ← allocInput (.ok s0.1)
  enforce (LC.zero.addTerm 1 .one) (LC.zero.addVar s0.2) (LC.zero.addVar output)
  return output

/-- poseidon.rs:620-718 `poseidon`. -/
def poseidon {p : Nat} [Fact p.Prime] (n : Nat) (ark mds : List (List (ZMod p)))
    (b : List UInt8) : Synth (ZMod p) (ZMod p) :=
  match hashElems ark mds (bytesToField p n b) with
  | none => panicS
  | some (xl, xr, image) => do
    let _ ← circuit ark mds xl xr
    return image

end Poseidon
end Zkp
