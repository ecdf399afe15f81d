/- Model of /repo/spartan/src/setup.rs and of `generate_random_parameters` in /repo/spartan/src/lib.rs.

The random points are those of a stream `draw`; each function gets the number of points already drawn and returns the new
number. Sizes are natural numbers: with 64-bit `usize` the exponent of `2usize.pow` and the products in
`generate_setup_snark_parameters` overflow only for circuits with 2^60 or so variables or constraints. -/
import Verif.Model.SpartanSnarkProver

namespace Zkp.Spartan

variable {F G : Type}

/-- setup.rs:84-89, 110-116 and 119-124: `n` generators, then `h`. -/
def multiNew (draw : Nat → G) (i n : Nat) : MultiParams G × Nat :=
  (⟨n, (List.range n).map fun j => draw (i + j), draw (i + n)⟩, i + n + 1)

/-- setup.rs:78-102 `PolyCommitmentParameters::new`. -/
def pcNew (draw : Nat → G) (i num : Nat) : PcParams G × Nat :=
  let n := 2 ^ (num - num / 2)
  let (genN, i) := multiNew draw i n
  (⟨n, genN, ⟨1, [draw i], genN.h⟩⟩, i + 1)

/-- setup.rs:58-76 `R1CSSatisfiedParameters::new` with 104-134 `SumCheckCommitmentParameters::new`. -/
def satNew (draw : Nat → G) (i numAux numInputs : Nat) : SatParams G × Nat :=
  let n := Nat.clog 2 (padTo (max numAux numInputs))
  let (pc, i) := pcNew draw i n
  let (gen3, i) := multiNew draw i 3
  let (gen4, i) := multiNew draw i 4
  (⟨pc, pc.gen1, gen3, gen4, n⟩, i)

/-- setup.rs:136-159 `R1CSEvalsParameters::new`. -/
def evalsNew (draw : Nat → G) (i n m : Nat) : EvalsParams G × Nat :=
  let (ops, i) := pcNew draw i (Nat.clog 2 n + 4)
  let (mem, i) := pcNew draw i (Nat.clog 2 (m * 2) + 1)
  let (derefs, i) := pcNew draw i (Nat.clog 2 n + 3)
  (⟨ops, mem, derefs⟩, i)

/-- setup.rs:16-31 `generate_setup_nizk_parameters`. -/
def setupNizk (draw : Nat → G) (numAux numInputs : Nat) : SatParams G × Nat := satNew draw 0 numAux numInputs

/-- setup.rs:33-56 `generate_setup_snark_parameters`. -/
def setupSnark (draw : Nat → G) (numAux numInputs numConstraints : Nat) : (SatParams G × EvalsParams G) × Nat :=
  let (sat, i) := satNew draw 0 numAux numInputs
  let t := padTo (max numAux numInputs)
  let n := padTo (max (t * 2) numConstraints)
  let (evals, i) := evalsNew draw i (numConstraints * (t * 2)) n
  ((sat, evals), i)

/-- lib.rs:183-196 `nizk::generate_random_parameters` for a circuit with the constraints of `cs`. -/
def generateNizk [Field F] (draw : Nat → G) (cs : CS F) : SatParams G × Inst F :=
  let r1cs := generateR1cs cs
  ((setupNizk draw r1cs.numAux r1cs.numInputs).1, r1cs)

/-- lib.rs:83-104 `snark::generate_random_parameters` for a circuit with the constraints of `cs`. -/
def generateSnark [Field F] [DecidableEq F] [AddCommGroup G] [Module F G] (draw : Nat → G) (cs : CS F) :
    Vf F G ((SatParams G × EvalsParams G) × Inst F × EncodeMemory F × EncodeCommit G) := do
  let r1cs := generateR1cs cs
  let params := (setupSnark draw r1cs.numAux r1cs.numInputs r1cs.numConstraints).1
  let (enc, commit) ← encode params.2 r1cs
  pure (params, r1cs, enc, commit)

end Zkp.Spartan
