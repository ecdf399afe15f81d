/- Model of the constraint systems that the proof systems run a circuit with:
/repo/groth16/src/generator.rs, /repo/groth16/src/prover.rs, /repo/bulletproofs/src/arithmetic_circuit.rs,
/repo/spartan/src/r1cs.rs, /repo/spartan/src/prover.rs, /repo/marlin/src/ahp/constraint_systems.rs.

A circuit is the sequence of calls it makes on the system it is given.  Annotations and namespaces are left
out: all of these systems ignore them (for instance groth16/src/generator.rs:113-123). -/
import Verif.Model.Cs

namespace Zkp.Back

/-- A run of `generate_constraints` (r1cs/src/constraint_system.rs:84-93) as the calls on the system: `done`
is its result; `alloc` and `allocInput` carry the value that the closure gives if it is called, and the rest of
the run depends on the variable returned; `enforce` carries the results of its closures. -/
inductive Prog (F : Type) where
  | done (r : Except SynthesisError Unit)
  | alloc (f : Except SynthesisError F) (k : Index → Prog F)
  | allocInput (f : Except SynthesisError F) (k : Index → Prog F)
  | enforce (a b c : LC F) (k : Prog F)

/-- The three methods of the trait `ConstraintSystem`, r1cs/src/constraint_system.rs:20-48. -/
structure Backend (F S : Type) where
  alloc : Except SynthesisError F → S → Except SynthesisError (Index × S)
  allocInput : Except SynthesisError F → S → Except SynthesisError (Index × S)
  enforce : LC F → LC F → LC F → S → S

/-- `circuit.generate_constraints(&mut cs)?`, for instance groth16/src/generator.rs:161. -/
def Prog.run {F S : Type} (B : Backend F S) : Prog F → S → Except SynthesisError S
  | .done (.ok _), s => .ok s
  | .done (.error e), _ => .error e
  | .alloc f k, s =>
    match B.alloc f s with
    | .ok (i, s') => (k i).run B s'
    | .error e => .error e
  | .allocInput f k, s =>
    match B.allocInput f s with
    | .ok (i, s') => (k i).run B s'
    | .error e => .error e
  | .enforce a b c k, s => k.run B (B.enforce a b c s)

variable {F : Type} [Field F]

/-- `push_constraints`: groth16/src/lib.rs:128-139, bulletproofs/src/lib.rs:319-330, spartan/src/r1cs.rs:158-169.
(An index out of range would panic; `modify` leaves the list as it is.  The callers push the row first.) -/
def pushConstraints (l : LC F) (constraints : List (List (F × Index))) (i : Nat) : List (List (F × Index)) :=
  l.foldl (fun m t => m.modify i fun row => row ++ [(t.2, t.1)]) constraints

/-- groth16/src/generator.rs:38-45 `KeypairAssembly`; spartan/src/r1cs.rs:14-22 `R1CSInstance` has the same fields. -/
structure Assembly (F : Type) where
  numInputs : Nat
  numAux : Nat
  numConstraints : Nat
  at' : List (List (F × Index))
  bt : List (List (F × Index))
  ct : List (List (F × Index))

/-- groth16/src/generator.rs:47-132; the same code is spartan/src/r1cs.rs:71-156.  No closure for a value is called. -/
def assembly : Backend F (Assembly F) where
  alloc _ s := .ok (.aux s.numAux, { s with numAux := s.numAux + 1 })
  allocInput _ s := .ok (.input s.numInputs, { s with numInputs := s.numInputs + 1 })
  enforce a b c s :=
    let at1 := s.at' ++ [[]]
    let bt1 := s.bt ++ [[]]
    let ct1 := s.ct ++ [[]]
    { s with
      at' := pushConstraints a at1 s.numConstraints
      bt := pushConstraints b bt1 s.numConstraints
      ct := pushConstraints c ct1 s.numConstraints
      numConstraints := s.numConstraints + 1 }

/-- groth16/src/generator.rs:148-158, spartan/src/r1cs.rs:174-184: empty, then the input for the constant one. -/
def assemblyInit : Except SynthesisError (Assembly F) :=
  (assembly.allocInput (.ok (1 : F)) ⟨0, 0, 0, [], [], []⟩).map Prod.snd

/-- groth16/src/prover.rs:16-25, bulletproofs/src/arithmetic_circuit.rs:23-32 `ProvingAssignment`. -/
structure Proving (F : Type) where
  at' : List (List (F × Index))
  bt : List (List (F × Index))
  ct : List (List (F × Index))
  input : List F
  aux : List F

/-- groth16/src/prover.rs:27-95; the same code is bulletproofs/src/arithmetic_circuit.rs:34-102. -/
def proving : Backend F (Proving F) where
  alloc f s := match f with
    | .ok v => .ok (.aux s.aux.length, { s with aux := s.aux ++ [v] })
    | .error e => .error e
  allocInput f s := match f with
    | .ok v => .ok (.input s.input.length, { s with input := s.input ++ [v] })
    | .error e => .error e
  enforce a b c s :=
    let n := s.at'.length
    let at1 := s.at' ++ [[]]
    let bt1 := s.bt ++ [[]]
    let ct1 := s.ct ++ [[]]
    { s with
      at' := pushConstraints a at1 n
      bt := pushConstraints b bt1 n
      ct := pushConstraints c ct1 n }

/-- groth16/src/prover.rs:134-143, bulletproofs/src/arithmetic_circuit.rs:196-205. -/
def provingInit : Except SynthesisError (Proving F) :=
  (proving.allocInput (.ok (1 : F)) ⟨[], [], [], [], []⟩).map Prod.snd

/-- spartan/src/prover.rs:38-42 `ProvingAssignment`. -/
structure Counting (F : Type) where
  numConstraints : Nat
  input : List F
  aux : List F

/-- spartan/src/prover.rs:44-102: constraints are only counted. -/
def counting : Backend F (Counting F) where
  alloc f s := match f with
    | .ok v => .ok (.aux s.aux.length, { s with aux := s.aux ++ [v] })
    | .error e => .error e
  allocInput f s := match f with
    | .ok v => .ok (.input s.input.length, { s with input := s.input ++ [v] })
    | .error e => .error e
  enforce _ _ _ s := { s with numConstraints := s.numConstraints + 1 }

/-- spartan/src/prover.rs:212-217. -/
def countingInit : Except SynthesisError (Counting F) :=
  (counting.allocInput (.ok (1 : F)) ⟨0, [], []⟩).map Prod.snd

/-- marlin/src/ahp/constraint_systems.rs:62-67 `make_row`. -/
def makeRow (l : LC F) : List (F × Index) := l.map fun t => (t.2, t.1)

/-- marlin/src/ahp/constraint_systems.rs:133-173 `IndexerConstraintSystem` (the state without the matrices that
are computed later). -/
def indexer : Backend F (Assembly F) where
  alloc _ s := .ok (.aux s.numAux, { s with numAux := s.numAux + 1 })
  allocInput _ s := .ok (.input s.numInputs, { s with numInputs := s.numInputs + 1 })
  enforce a b c s :=
    { s with
      at' := s.at' ++ [makeRow a]
      bt := s.bt ++ [makeRow b]
      ct := s.ct ++ [makeRow c]
      numConstraints := s.numConstraints + 1 }

/-- marlin/src/ahp/constraint_systems.rs:48-60 `new`. -/
def indexerInit : Assembly F := ⟨1, 0, 0, [], [], []⟩

/-- marlin/src/ahp/constraint_systems.rs:196-202 `ProverConstraintSystem`. -/
structure MarlinProving (F : Type) where
  numInputs : Nat
  numAux : Nat
  numConstraints : Nat
  input : List F
  aux : List F

/-- marlin/src/ahp/constraint_systems.rs:227-263: the variables are numbered by counters, the values pushed. -/
def marlinProving : Backend F (MarlinProving F) where
  alloc f s := match f with
    | .ok v => .ok (.aux s.numAux, { s with aux := s.aux ++ [v], numAux := s.numAux + 1 })
    | .error e => .error e
  allocInput f s := match f with
    | .ok v => .ok (.input s.numInputs, { s with input := s.input ++ [v], numInputs := s.numInputs + 1 })
    | .error e => .error e
  enforce _ _ _ s := { s with numConstraints := s.numConstraints + 1 }

/-- marlin/src/ahp/constraint_systems.rs:205-213 `new`. -/
def marlinProvingInit : MarlinProving F := ⟨1, 0, 0, [1], []⟩

/-- The same calls on the system of `Model/Cs.lean`, on which the gadgets of this model are built
(r1cs/src/constraint_system.rs:20-48). -/
def Prog.toSynth : Prog F → Synth F Unit
  | .done (.ok _) => fun s => .ok ((), s)
  | .done (.error e) => failS e
  | .alloc f k => do let i ← Zkp.alloc f; (k i).toSynth
  | .allocInput f k => do let i ← Zkp.allocInput f; (k i).toSynth
  | .enforce a b c k => do Zkp.enforce a b c; k.toSynth

end Zkp.Back
