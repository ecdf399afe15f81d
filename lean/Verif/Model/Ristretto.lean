/- Model of /repo/curve25519/src/group.rs, the wrapper that makes the Ristretto group of `curve25519-dalek` a `Curve`.

External: the group `G` of `curve25519-dalek` (order ℓ, so a module over the integers modulo ℓ), its compressed encoding, and
its scalars read from bytes; `ark-ff`'s `Fr` with the modulus of fr.rs. `none` is a Rust panic or, where said, an error. Not
modelled: sampling and hashing to the group (lines 68-70, 272-279, 281-285), `Display`, `Zeroize`. -/
import Verif.Model.R1cs
import Mathlib.Algebra.Module.Defs
import Mathlib.Data.ZMod.Defs
import Mathlib.Data.ZMod.Basic

namespace Zkp.Ristretto

/-- fr.rs:27-38: the modulus of `Fr`, the order of the group. -/
def order : Nat := 2 ^ 252 + 27742317777372353535851937790883648493

/-- `Fr` of fr.rs:6. -/
abbrev Fr := ZMod order

/-- The encoding of points: `RistrettoPoint::compress` and `CompressedRistretto::decompress`, used in group.rs:161, 169, 296,
318. -/
structure Encoding (G : Type) where
  compress : G → List UInt8
  decompress : List UInt8 → Option G

/-- The number with the given bytes, the lowest first (`Scalar::from_bits` of `curve25519-dalek`, used in group.rs:41, 153,
223). -/
def leVal (bs : List UInt8) : Nat := bs.foldr (fun b n => b.toNat + 256 * n) 0

/-- `Fr::write` of `ark-ff`, used in group.rs:39, 221: the canonical representative in 32 bytes. -/
def frBytes (x : Fr) : List UInt8 := leBytes 32 x.val

/-- `Scalar::from_bytes_mod_order` of `curve25519-dalek`, used in group.rs:41, 223. -/
def fromBytesModOrder (bs : List UInt8) : Fr := (leVal bs : Nat)

/-- `Scalar::from_canonical_bytes` of `curve25519-dalek`, used in group.rs:153: nothing if the highest bit is set or the number
is not reduced. -/
def fromCanonicalBytes (bs : List UInt8) : Option Fr :=
  if leVal bs < 2 ^ 255 ∧ leVal bs < order then some (leVal bs : Nat) else none

variable {G : Type} [AddCommGroup G] [Module Fr G]

/-- group.rs:217-225 `MulAssign<Fr>`. -/
def mulAssign (p : G) (x : Fr) : G := fromBytesModOrder (frBytes x) • p

/-- group.rs:29-46 `vartime_multiscalar_mul`: both slices are cut to the shorter length. -/
def multiscalarMul (s : List Fr) (p : List G) : G :=
  let size := min s.length p.length
  (List.zipWith (fun x q => x • q) ((s.take size).map fun x => fromBytesModOrder (frBytes x)) (p.take size)).sum

/-- `Fr::from_repr` of `ark-ff`, used in group.rs:77. -/
def frFromRepr (n : Nat) : Option Fr := if n < order then some (n : Nat) else none

/-- group.rs:72-79 `AffineCurve::mul`; the argument is the number of a `BigInteger256`. -/
def affineMul (p : G) (n : Nat) : Option G := (frFromRepr n).map (mulAssign p)

/-- group.rs:81-85 `mul_by_cofactor`. -/
def mulByCofactor (p : G) : G := mulAssign p 8

/-- group.rs:87-90 `mul_by_cofactor_inv`: panics. -/
def mulByCofactorInv (_ : G) : Option G := none

/-- group.rs:92-94 `mul_by_cofactor_to_projective`: panics. -/
def mulByCofactorToProjective (_ : G) : Option G := none

/-- group.rs:104-106 `ProjectiveCurve::prime_subgroup_generator`: panics. -/
def projectiveGenerator : Option G := none

/-- group.rs:108-110 `batch_normalization`: panics. -/
def batchNormalization (_ : List G) : Option (List G) := none

/-- group.rs:112-116 `batch_normalization_into_affine`. -/
def batchNormalizationIntoAffine (v : List G) : Option (List G) := batchNormalization v

/-- group.rs:118-120 `is_normalized`: panics. -/
def isNormalized (_ : G) : Option Bool := none

/-- group.rs:128-130 `double_in_place`: panics. -/
def doubleInPlace (_ : G) : Option G := none

/-- group.rs:122-126 `double`. -/
def double (p : G) : Option G := doubleInPlace p

/-- group.rs:58, 102 `COFACTOR`: limbs of the number, commented as not used. -/
def COFACTOR : List Nat := [0, 0, 0, 0]

/-- group.rs:64-66 `into_projective`. -/
def intoProjective (p : G) : G := p

/-- group.rs:132-134 `into_affine`. -/
def intoAffine (p : G) : G := p

/-- group.rs:141-143 `add_assign_mixed`. -/
def addAssignMixed (p q : G) : G := p + q

/-- group.rs:136-139 `add_mixed`. -/
def addMixed (p q : G) : G := addAssignMixed p q

/-- group.rs:145-155 `ProjectiveCurve::mul`; the argument is a slice of 64-bit words, the lowest first. -/
def projectiveMul (p : G) (words : List Nat) : Option G :=
  if words.length ≠ 4 then none
  else (fromCanonicalBytes (words.flatMap (leBytes 8))).map (· • p)

/-- group.rs:176-178 `zero`. -/
def zero : G := 0

/-- group.rs:180-182 `is_zero`. -/
def isZero [DecidableEq G] (p : G) : Bool := p == zero

/-- group.rs:260-270 `Sum`. -/
def sum (ps : List G) : G := ps.foldl (fun acc q => acc + q) zero

/-- group.rs:158-163 `ToBytes::write`. -/
def write (e : Encoding G) (p : G) : List UInt8 := e.compress p

/-- group.rs:165-173 `FromBytes::read`: the point and the bytes left, or an error. -/
def read (e : Encoding G) (bs : List UInt8) : Option (G × List UInt8) :=
  if bs.length < 32 then none else (e.decompress (bs.take 32)).map fun p => (p, bs.drop 32)

/-- group.rs:293-308 `serialize` and `serialize_uncompressed`. How `ark-serialize` writes an array of bytes is a parameter: the
bytes alone, or their number first. -/
def serialize (array : List UInt8 → List UInt8) (e : Encoding G) (p : G) : List UInt8 := array (e.compress p)

/-- group.rs:299-302, 309-312 `serialized_size` and `uncompressed_size`. -/
def serializedSize : Nat := 32

/-- group.rs:315-338 `deserialize`, `deserialize_uncompressed` and `deserialize_unchecked`. -/
def deserialize (e : Encoding G) (bs : List UInt8) : Option (G × List UInt8) := read e bs

/-- `ark-serialize`'s encoding of a slice of bytes: the number of elements in eight bytes, then the elements. Used through
group.rs:296, 306 if arrays are encoded as slices. -/
def lengthFirst (bs : List UInt8) : List UInt8 := leBytes 8 bs.length ++ bs

end Zkp.Ristretto
