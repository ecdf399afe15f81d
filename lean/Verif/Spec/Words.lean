/-
Specification vocabulary for 32-bit words and bit strings (no reference to any gadget).
-/
import Mathlib.Data.Nat.Size

namespace Zkp

/-- The sum of 32-bit words modulo `2^32`. -/
def wordSum (xs : List (BitVec 32)) : BitVec 32 := xs.foldr (· + ·) 0

/-- `CAPACITY` of the prime field with `p` elements: one less than the number of bits of `p`. -/
def capacity (p : Nat) : Nat := Nat.size p - 1

/-- The bits of a word, least significant first. -/
def bitsLE (x : BitVec 32) : List Bool := (List.range 32).map fun i => x.getLsbD i

/-- The bits of a word, most significant first. -/
def bitsBE (x : BitVec 32) : List Bool := (bitsLE x).reverse

/-- The word written by a list of bits, most significant first. -/
def wordBE (bits : List Bool) : BitVec 32 :=
  BitVec.ofNat 32 (bits.foldl (fun n b => 2 * n + b.toNat) 0)

/-- The word written by a list of bits, least significant first. -/
def wordLE (bits : List Bool) : BitVec 32 := wordBE bits.reverse

/-- Cut a list into consecutive pieces of length `n` (the last one may be shorter); Rust
`slice::chunks`. -/
def chunks {α : Type} (n : Nat) (l : List α) : List (List α) :=
  if h : n = 0 ∨ l = [] then [] else l.take n :: chunks n (l.drop n)
termination_by l.length
decreasing_by
  simp only [not_or] at h
  have : 0 < l.length := List.length_pos_iff.mpr h.2
  simp only [List.length_drop]
  omega

end Zkp
