/- Model of what Marlin hashes: the byte strings written by the `ToBytes` implementations of marlin/src/data_structures.rs,
marlin/src/ahp/indexer.rs and marlin/src/pc/data_structures.rs, and the order in which the verifier absorbs them.

External: the `ToBytes` implementations of `ark-ff` for integers, `bool`, vectors (the elements one after the other, without
the length), field elements and points of the curves. -/
import Verif.Model.Challenge

namespace Zkp.MarlinBytes

/-- `ToBytes` of `ark-ff` for `u64` (`n = 8`) and `u32` (`n = 4`), used in marlin/src/ahp/indexer.rs:22-24 and
marlin/src/data_structures.rs:27: the bytes from the least to the most significant one, of the number modulo `256 ^ n`. -/
def leBytes : Nat → Nat → List UInt8
  | 0, _ => []
  | n + 1, v => UInt8.ofNat (v % 256) :: leBytes n (v / 256)

/-- The types of curve points and field elements with their external `ToBytes` implementations, used in
marlin/src/pc/data_structures.rs:111-118, 130-134 and marlin/src/lib.rs:189, 204. -/
structure Enc (F G1 G2 : Type) where
  fr : F → List UInt8
  g1 : G1 → List UInt8
  g2 : G2 → List UInt8
  zero : G1

/-- marlin/src/ahp/indexer.rs:12-17 `IndexInfo`. -/
structure IndexInfo where
  num_constraints : Nat
  num_variables : Nat
  num_non_zeros : Nat
deriving DecidableEq

/-- marlin/src/ahp/indexer.rs:19-26 `IndexInfo::write`. -/
def IndexInfo.write (i : IndexInfo) : List UInt8 :=
  leBytes 8 i.num_variables ++ leBytes 8 i.num_constraints ++ leBytes 8 i.num_non_zeros

/-- marlin/src/pc/data_structures.rs:137-141 `Commitment` (`Comm`, lines 121-135, is a point). -/
structure Commitment (G1 : Type) where
  comm : G1
  shifted_comm : Option G1
deriving DecidableEq

/-- marlin/src/pc/data_structures.rs:143-155 `Commitment::write`: the point, a byte that says whether there is a shifted point,
and the shifted point or zero. -/
def Commitment.write {F G1 G2 : Type} (e : Enc F G1 G2) (c : Commitment G1) : List UInt8 :=
  e.g1 c.comm ++ [if c.shifted_comm.isSome then 1 else 0] ++ e.g1 (c.shifted_comm.getD e.zero)

/-- marlin/src/pc/data_structures.rs:101-108 `VerifierKey`. -/
structure VerifierKey (G1 G2 : Type) where
  g : G1
  gamma_g : G1
  h : G2
  beta_h : G2
  supported_degree : Nat
deriving DecidableEq

/-- marlin/src/pc/data_structures.rs:110-119 `VerifierKey::write`. -/
def VerifierKey.write {F G1 G2 : Type} (e : Enc F G1 G2) (k : VerifierKey G1 G2) : List UInt8 :=
  e.g1 k.g ++ e.g1 k.gamma_g ++ e.g2 k.h ++ e.g2 k.beta_h ++ leBytes 8 k.supported_degree

/-- marlin/src/data_structures.rs:10-15 `IndexVerifierKey`. -/
structure IndexVerifierKey (G1 G2 : Type) where
  index_info : IndexInfo
  index_comms : List (Commitment G1)
  verifier_key : VerifierKey G1 G2
deriving DecidableEq

/-- A vector of commitments, marlin/src/lib.rs:192, 196, 200 (and marlin/src/pc/data_structures.rs:293-298, the labels are not
written): one after the other. -/
def writeComms {F G1 G2 : Type} (e : Enc F G1 G2) (cs : List (Commitment G1)) : List UInt8 := cs.flatMap (Commitment.write e)

/-- marlin/src/data_structures.rs:23-34 `IndexVerifierKey::write`. -/
def IndexVerifierKey.write {F G1 G2 : Type} (e : Enc F G1 G2) (k : IndexVerifierKey G1 G2) : List UInt8 :=
  k.index_info.write ++ leBytes 4 k.index_comms.length ++ writeComms e k.index_comms ++ k.verifier_key.write e

/-- marlin/src/lib.rs:106, 189: what the generator is made from. -/
def seedBytes {F G1 G2 : Type} (e : Enc F G1 G2) (k : IndexVerifierKey G1 G2) (public_input : List F) : List UInt8 :=
  k.write e ++ public_input.flatMap e.fr

/-- marlin/src/lib.rs:189-204 (105-157 in the prover): the seed of the generator when the opening challenge is drawn. -/
def finalSeed {F G1 G2 : Type} (hash : List UInt8 → List UInt8) (e : Enc F G1 G2) (k : IndexVerifierKey G1 G2)
    (public_input : List F) (first second third : List (Commitment G1)) (evaluations : List F) : List UInt8 :=
  let s := Chal.fromSeed hash (seedBytes e k public_input)
  let s := Chal.absorb hash s (writeComms e first)
  let s := Chal.absorb hash s (writeComms e second)
  let s := Chal.absorb hash s (writeComms e third)
  Chal.absorb hash s (evaluations.flatMap e.fr)

end Zkp.MarlinBytes
