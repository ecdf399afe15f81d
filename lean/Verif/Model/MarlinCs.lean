/- Model of /repo/marlin/src/ahp/constraint_systems.rs and the matrix part of
/repo/marlin/src/ahp/arithmetic.rs: from a synthesized circuit to three square sparse matrices. -/
import Verif.Model.Cs

namespace Zkp.Marlin

variable {F : Type} [Field F]

/-- arithmetic.rs:46-47 `Matrix`: rows of (coefficient, column). -/
abbrev Matrix (F : Type) := List (List (F × Nat))

/-- constraint_systems.rs:33-45 `IndexerConstraintSystem`, the fields filled during synthesis (133-171). -/
structure Ics (F : Type) where
  numInputs : Nat
  numWitness : Nat
  a : List (List (F × Index))
  b : List (List (F × Index))
  c : List (List (F × Index))

/-- constraint_systems.rs:62-67 `make_row`. -/
def makeRow (l : LC F) : List (F × Index) := l.map fun t => (t.2, t.1)

/-- constraint_systems.rs:133-171: the state after synthesis of a circuit that allocates the variables
and enforces the constraints of `cs`. -/
def Ics.of (cs : CS F) : Ics F :=
  { numInputs := cs.inputs.length
    numWitness := cs.aux.length
    a := cs.constraints.map fun k => makeRow k.a
    b := cs.constraints.map fun k => makeRow k.b
    c := cs.constraints.map fun k => makeRow k.c }

/-- constraint_systems.rs:9-31 and 69-72 `make_matrices_square` of the indexer: pad with variables or with
empty constraints. -/
def Ics.makeSquare (s : Ics F) : Ics F :=
  let vars := s.numInputs + s.numWitness
  let cons := s.a.length
  if vars < cons then { s with numWitness := s.numWitness + (cons - vars) }
  else { s with
    a := s.a ++ List.replicate (vars - cons) []
    b := s.b ++ List.replicate (vars - cons) []
    c := s.c ++ List.replicate (vars - cons) [] }

/-- constraint_systems.rs:121-125: the column of a variable. -/
def column (numInputs : Nat) : Index → Nat
  | .aux i => i + numInputs
  | .input i => i

/-- constraint_systems.rs:116-130 `reindex`. -/
def reindex (numInputs : Nat) (m : List (List (F × Index))) : Matrix F :=
  m.map fun row => row.map fun t => (t.1, column numInputs t.2)

/-- arithmetic.rs:49-55 `matrix_density`. -/
def density (m : Matrix F) : Nat := (m.map List.length).sum

/-- `usize` subtraction on a 64-bit machine: with overflow checks (debug builds) it panics below zero,
without (release builds) it wraps. -/
def usizeSub (checked : Bool) (x y : Nat) : Except SynthesisError Nat :=
  if y ≤ x then .ok (x - y) else if checked then .error .panic else .ok (x + 2 ^ 64 - y)

/-- `usize` addition. marlin/src/ahp/constraint_systems.rs:70. -/
def usizeAdd (checked : Bool) (x y : Nat) : Except SynthesisError Nat :=
  if x + y < 2 ^ 64 then .ok (x + y) else if checked then .error .panic else .ok ((x + y) % 2 ^ 64)

/-- constraint_systems.rs:104-113, the loop of `balance_matrices`. -/
def balanceLoop (checked : Bool) : Bool → Nat → Nat → Matrix F → Matrix F →
    Except SynthesisError (Matrix F × Matrix F)
  | true, aD, bD, ra :: a, rb :: b => do
    let x ← usizeSub checked rb.length ra.length
    let aD ← usizeAdd checked aD x
    let y ← usizeSub checked ra.length rb.length
    let bD ← usizeAdd checked bD y
    let r ← balanceLoop checked (decide (aD > bD)) aD bD a b
    .ok (rb :: r.1, ra :: r.2)
  | false, aD, bD, ra :: a, rb :: b => do
    let r ← balanceLoop checked false aD bD a b
    .ok (ra :: r.1, rb :: r.2)
  | _, _, _, a, b => .ok (a, b)

/-- constraint_systems.rs:100-114 `balance_matrices`. -/
def balance (checked : Bool) (a b : Matrix F) : Except SynthesisError (Matrix F × Matrix F) :=
  balanceLoop checked (decide (density a > density b)) (density a) (density b) a b

/-- arithmetic.rs:65-78 `is_in_ascending_order` with `<` on columns. -/
def ascending : List (F × Nat) → Bool
  | [] => true
  | [_] => true
  | x :: y :: l => decide (x.2 < y.2) && ascending (y :: l)

/-- arithmetic.rs:57-63 `sort_matrix_columns`; `sort_by` is a stable sort. -/
def sortColumns (m : Matrix F) : Matrix F :=
  m.map fun row => if ascending row then row else row.mergeSort fun x y => decide (x.2 ≤ y.2)

/-- constraint_systems.rs:74-88 `process_matrices`. -/
def Ics.process (checked : Bool) (s : Ics F) : Except SynthesisError (Matrix F × Matrix F × Matrix F) := do
  let r ← balance checked (reindex s.numInputs s.a) (reindex s.numInputs s.b)
  .ok (sortColumns r.1, sortColumns r.2, sortColumns (reindex s.numInputs s.c))

/-- constraint_systems.rs:90-98 `num_non_zeros`. -/
def numNonZeros (m : Matrix F × Matrix F × Matrix F) : Nat :=
  max (max (density m.1) (density m.2.1)) (density m.2.2)

/-- constraint_systems.rs:196-217, 227-263: the prover's assignment after `make_matrices_square`, together
with its number of constraints. -/
def proverSquare (cs : CS F) : List F × List F × Nat :=
  let vars := cs.inputs.length + cs.aux.length
  let cons := cs.constraints.length
  if vars < cons then (cs.inputs, cs.aux ++ List.replicate (cons - vars) 1, cons)
  else (cs.inputs, cs.aux, cons + (vars - cons))

end Zkp.Marlin
