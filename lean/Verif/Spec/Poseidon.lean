/- The Poseidon permutation of width three (Grassi et al., "Poseidon: A New Hash Function for
Zero-Knowledge Proof Systems", section 2): `rf / 2` full rounds, then `rp` partial rounds, then
`rf / 2` full rounds; each round adds constants, applies the power map (to every element in a full
round, to one element – here the last – in a partial round) and multiplies by the matrix. -/
import Mathlib.Algebra.Field.Defs

namespace Zkp

variable {F : Type} [Field F]

/-- A state of three elements. -/
structure S3 (F : Type) where
  a : F
  b : F
  c : F
deriving DecidableEq

def poseidonRound (ark : Nat → S3 F) (mds : S3 (S3 F)) (full : Bool) (r : Nat) (s : S3 F) : S3 F :=
  let a := s.a + (ark r).a
  let b := s.b + (ark r).b
  let c := s.c + (ark r).c
  let a := if full then a ^ 5 else a
  let b := if full then b ^ 5 else b
  let c := c ^ 5
  ⟨mds.a.a * a + mds.a.b * b + mds.a.c * c, mds.b.a * a + mds.b.b * b + mds.b.c * c,
    mds.c.a * a + mds.c.b * b + mds.c.c * c⟩

def poseidonSpec (rf rp : Nat) (ark : Nat → S3 F) (mds : S3 (S3 F)) (s : S3 F) : S3 F :=
  (List.range (rf + rp)).foldl
    (fun s r => poseidonRound ark mds (decide (r < rf / 2) || decide (rf / 2 + rp ≤ r)) r s) s

end Zkp
