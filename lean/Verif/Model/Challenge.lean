/- Model of the conversion of hashes to challenges (`random_bytes_to_fr` in bulletproofs, spartan, hyrax and libra) and of the
generators of challenges of Marlin and Plonk (marlin/src/fs_rng.rs, plonk/src/rng.rs).

External: `Field::from_random_bytes` of `ark-ff` for a prime field of four limbs; the hash functions (`merlin`, `Digest`);
`ChaChaRng`, a function of its seed. -/
import Verif.Model.Ristretto

namespace Zkp.Chal

open Zkp.Ristretto (leVal)

/-- `Field::from_random_bytes` of `ark-ff`, called in bulletproofs/src/lib.rs:315: the bytes are filled up with zeros or cut to
four limbs, the highest `REPR_SHAVE_BITS` bits are cleared, and a number that is not reduced gives nothing. -/
def fromRandomBytes (p shave : Nat) (bytes : List UInt8) : Option (ZMod p) :=
  let v := leVal (bytes.take 32) % 2 ^ (256 - shave)
  if v < p then some (v : Nat) else none

/-- bulletproofs/src/lib.rs:310-317, spartan/src/data_structure.rs:339-346, hyrax/src/evaluate.rs:79-86,
libra/src/evaluate.rs:121-128 `random_bytes_to_fr`: only the first 31 bytes are used; `none` is a panic (of the slice or of
`unwrap`). -/
def randomBytesToFr (p shave : Nat) (bytes : List UInt8) : Option (ZMod p) :=
  if bytes.length < 31 then none else fromRandomBytes p shave (bytes.take 31)

/-- marlin/src/fs_rng.rs:42-53, plonk/src/rng.rs:46-58 `from_seed`: the new seed. `hash` is the hash of the bytes (a transcript
of `merlin` in Marlin, `D::digest` in Plonk). -/
def fromSeed (hash : List UInt8 → List UInt8) (bytes : List UInt8) : List UInt8 := hash bytes

/-- marlin/src/fs_rng.rs:58-69, plonk/src/rng.rs:63-71 `absorb`: the new bytes are put before the old seed. -/
def absorb (hash : List UInt8 → List UInt8) (seed bytes : List UInt8) : List UInt8 := hash (bytes ++ seed)

/-- plonk/src/rng.rs:50-51, 68-69 (marlin/src/fs_rng.rs:51, 67, where the seed has 32 bytes): what `ChaChaRng` starts from, the
first 32 bytes; a shorter digest panics. -/
def streamSeed (seed : List UInt8) : Option (List UInt8) := if seed.length < 32 then none else some (seed.take 32)

end Zkp.Chal
