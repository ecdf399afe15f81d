/- Model of /repo/spartan/src/r1cs.rs and /repo/spartan/src/spark.rs.

`none` is a Rust panic. -/
import Verif.Model.Cs
import Verif.Model.Transcript
import Verif.Model.Multilinear
import Mathlib.Data.Nat.Log

namespace Zkp.Spartan

open Zkp.Ml (Rows col)

variable {F : Type} [Field F]

/-! ### r1cs.rs -/

/-- r1cs.rs:14-22 `R1CSInstance`. -/
structure Inst (F : Type) where
  numInputs : Nat
  numAux : Nat
  numConstraints : Nat
  a : Rows F
  b : Rows F
  c : Rows F

/-- r1cs.rs:158-169 `push_constraints`: one row. -/
def pushRow (l : LC F) : List (F × Index) := l.map fun t => (t.2, t.1)

/-- r1cs.rs:187, 198-201: the smallest power of two at least `n` (`2^log2(n)`, where `ark_std::log2` rounds
up and sends 0 to 0). -/
def padTo (n : Nat) : Nat := 2 ^ Nat.clog 2 n

/-- r1cs.rs:171-203 `generate_r1cs`: the instance after synthesis of a circuit that allocates the
variables and enforces the constraints of `cs` (r1cs.rs:71-156), padded with empty constraints. -/
def generateR1cs (cs : CS F) : Inst F :=
  let n := cs.constraints.length
  let pad := List.replicate (padTo n - n) []
  { numInputs := cs.inputs.length
    numAux := cs.aux.length
    numConstraints := padTo n
    a := (cs.constraints.map fun k => pushRow k.a) ++ pad
    b := (cs.constraints.map fun k => pushRow k.b) ++ pad
    c := (cs.constraints.map fun k => pushRow k.c) ++ pad }

/-- r1cs.rs:32-41 (and 42-51, 52-61): the transcript operations for one matrix; `name` is `a`, `b` or
`c`. -/
def matrixMsgs {G : Type} (name : String) (m : Rows F) : List (Msg F G) :=
  m.flatMap fun row => row.flatMap fun t =>
    [.fr (name ++ "_matrix") t.1,
     match t.2 with
     | .aux i => .u64 (name ++ "_matrix_index_aux") i
     | .input i => .u64 (name ++ "_matrix_index_input") i]

/-- r1cs.rs:25-66 `r1cs_to_hash`: everything absorbed before the challenge is drawn. -/
def hashMsgs {G : Type} (s : Inst F) : List (Msg F G) :=
  [.u64 "num_inputs" s.numInputs, .u64 "num_aux" s.numAux, .u64 "num_constraints" s.numConstraints] ++
    matrixMsgs "a" s.a ++ matrixMsgs "b" s.b ++ matrixMsgs "c" s.c

/-- r1cs.rs:25-66 `r1cs_to_hash`. -/
def r1csToHash {G : Type} (ch : Oracle F G) (s : Inst F) : F :=
  ch (hashMsgs s ++ [.chal "challenge_nextround"])

/-- `*x += val` or `insert` in a `BTreeMap` (r1cs.rs:218-229), the map as its list of entries in
ascending key order. -/
def mapAdd (k : Nat) (v : F) : List (Nat × F) → List (Nat × F)
  | [] => [(k, v)]
  | (k', v') :: m =>
    if k < k' then (k, v) :: (k', v') :: m
    else if k = k' then (k', v' + v) :: m
    else (k', v') :: mapAdd k v m

/-- r1cs.rs:214-232: the map of one row. -/
def rowMap (w : Nat) (row : List (F × Index)) : List (Nat × F) :=
  row.foldl (fun m t => mapAdd (col w t.2) t.1 m) []

/-- r1cs.rs:205-243 `switch_matrix_to_list`: values, rows and columns. -/
def switchMatrixToList [DecidableEq F] (m : Rows F) (w : Nat) : List F × List Nat × List Nat :=
  let l := m.zipIdx.flatMap fun (row, i) =>
    ((rowMap w row).filter fun e => e.2 ≠ 0).map fun e => (e.2, i, e.1)
  (l.map (·.1), l.map (·.2.1), l.map (·.2.2))

/-! ### spark.rs -/

/-- spark.rs:143-150: one address list; `none` when an address is outside the memory. The counters are
`i32` in Rust; they stay below the number of reads. -/
def readPass : List Nat → List Nat → Option (List Nat × List Nat)
  | [], audit => some ([], audit)
  | addr :: addrs, audit => do
    let rts ← audit[addr]?
    let (ts, audit) ← readPass addrs (audit.set addr (rts + 1))
    some (rts :: ts, audit)

/-- spark.rs:137-150: the passes over all address lists; `none` also when a list does not have `n`
entries. -/
def readPasses (n : Nat) : List (List Nat) → List Nat → Option (List (List Nat) × List Nat)
  | [], audit => some ([], audit)
  | addrs :: rest, audit =>
    if addrs.length ≠ n then none
    else do
      let (ts, audit) ← readPass addrs audit
      let (tss, audit) ← readPasses n rest audit
      some (ts :: tss, audit)

/-- data_structure.rs:118-124 `AddrTimestamps`. -/
structure AddrTimestamps (F : Type) where
  addrIndex : List (List Nat)
  addrs : List (List F)
  readTs : List (List F)
  auditTs : List F

/-- spark.rs:132-176 `memory_in_the_head`. `from_repr(…).unwrap()` of a number below the modulus is the
cast (all numbers here are below `2^64`). -/
def memoryInTheHead (addrsList : List (List Nat)) (n m : Nat) : Option (AddrTimestamps F) := do
  let (ts, audit) ← readPasses n addrsList (List.replicate m 0)
  some { addrIndex := addrsList
         addrs := addrsList.map fun l => l.map fun (a : Nat) => (a : F)
         readTs := ts.map fun l => l.map fun (a : Nat) => (a : F)
         auditTs := audit.map fun (a : Nat) => (a : F) }

/-- spark.rs:298-312 `circuit_hash`. -/
def circuitHash (a v t : List F) (gamma : F) : Option (List F) :=
  if a.length ≠ v.length ∨ a.length ≠ t.length then none
  else some ((List.range a.length).map fun i =>
    a.getD i 0 * gamma * gamma + v.getD i 0 * gamma + t.getD i 0)

/-- data_structure.rs:294-298 `ProductCircuit`. -/
structure ProductCircuit (F : Type) where
  left : List (List F)
  right : List (List F)

/-- spark.rs:323-339: `layers` passes of the loop. -/
def productLayers : Nat → List F → List (List F × List F)
  | 0, _ => []
  | k + 1, list =>
    let half := list.length / 2
    let (list, half) := if half * 2 < list.length then (list ++ [1], half + 1) else (list, half)
    let l := list.take half
    let r := list.drop half
    (l, r) :: productLayers k (List.zipWith (· * ·) l r)

/-- spark.rs:315-347 `construct_product_circuit`. -/
def constructProductCircuit (list : List F) : ProductCircuit F :=
  let ls := productLayers (Nat.clog 2 list.length) list
  ⟨ls.map (·.1), ls.map (·.2)⟩

/-- spark.rs:349-359 `evaluate_product_circuit`; with no layers `clen - 1` underflows (a panic also in
builds without overflow checks, where the wrapped index is out of range). -/
def evaluateProductCircuit (p : ProductCircuit F) : Option F :=
  if p.left.length ≠ p.right.length then none
  else if p.left.length = 0 then none
  else do
    let l ← p.left[p.left.length - 1]?
    let r ← p.right[p.left.length - 1]?
    match l, r with
    | [x], [y] => some (x * y)
    | _, _ => none

/-- spark.rs:361-372 `evaluate_dot_product_circuit`. -/
def evaluateDotProductCircuit (row column val : List F) : Option F :=
  if row.length ≠ column.length ∨ column.length ≠ val.length then none
  else some ((List.range row.length).map fun i =>
    row.getD i 0 * column.getD i 0 * val.getD i 0).sum

/-- data_structure.rs:278-304 `HashForMemoryChecking` and `ProdForMemoryChecking`, together `MemoryLayer`. -/
structure MemoryLayer (F : Type) where
  initHash : List F
  readHash : List (List F)
  writeHash : List (List F)
  auditHash : List F
  initProd : ProductCircuit F
  readProd : List (ProductCircuit F)
  writeProd : List (ProductCircuit F)
  auditProd : ProductCircuit F

/-- spark.rs:250-253, 256-259, 264-267, 270-273: subtract `gamma2` and build the circuit. -/
def hashCircuit (gamma2 : F) (h : List F) : ProductCircuit F :=
  constructProductCircuit (h.map fun x => x - gamma2)

/-- spark.rs:209-296 `memory_checking`; `none` also when the final assertion fails. -/
def memoryChecking [DecidableEq F] (lists : List (List F)) (mem : List F) (readTs : List (List F))
    (auditTs : List F) (es : List (List F)) (gamma1 gamma2 : F) : Option (MemoryLayer F) :=
  if lists.length ≠ readTs.length ∨ mem.length ≠ auditTs.length ∨ lists.length ≠ es.length then none
  else do
    let initA := (List.range mem.length).map fun (i : Nat) => (i : F)
    let initHash ← circuitHash initA mem (List.replicate mem.length 0) gamma1
    let triples := (lists.zip readTs).zip es
    let readHash ← triples.mapM fun t => circuitHash t.1.1 t.2 t.1.2 gamma1
    let writeHash ← triples.mapM fun t => circuitHash t.1.1 t.2 (t.1.2.map (· + 1)) gamma1
    let auditHash ← circuitHash initA mem auditTs gamma1
    let initProd := hashCircuit gamma2 initHash
    let readProd := readHash.map (hashCircuit gamma2)
    let writeProd := writeHash.map (hashCircuit gamma2)
    let auditProd := hashCircuit gamma2 auditHash
    let init ← evaluateProductCircuit initProd
    let read ← readProd.mapM evaluateProductCircuit
    let write ← writeProd.mapM evaluateProductCircuit
    let audit ← evaluateProductCircuit auditProd
    if init * write.prod = read.prod * audit then
      some ⟨initHash, readHash, writeHash, auditHash, initProd, readProd, writeProd, auditProd⟩
    else none

/-- spark.rs:107-130 `equalize_length`: zeros in front of the shorter point. -/
def equalizeLength (rx ry : List F) : List F × List F :=
  (List.replicate (ry.length - rx.length) 0 ++ rx, List.replicate (rx.length - ry.length) 0 ++ ry)

end Zkp.Spartan
