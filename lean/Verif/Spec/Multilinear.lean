/- The multilinear extension of a value table, stated without reference to the code. -/
import Mathlib.Algebra.BigOperators.Group.Finset.Basic
import Mathlib.Algebra.BigOperators.Ring.Finset
import Mathlib.Algebra.Field.Basic
import Mathlib.Algebra.BigOperators.Intervals
import Mathlib.Data.Nat.Bitwise

namespace Zkp.Ml

variable {F : Type} [Field F]

/-- The multilinear polynomial in `r` that is one at the bits of `i` (most significant first) and zero
at the bits of every other position. -/
def eqWeight (r : List F) (i : Nat) : F :=
  ∏ j ∈ Finset.range r.length,
    if i.testBit (r.length - 1 - j) then r.getD j 0 else 1 - r.getD j 0

/-- The multilinear extension at `r` of the table `v` (missing entries are zero). -/
def mle (v r : List F) : F := ∑ i ∈ Finset.range (2 ^ r.length), v.getD i 0 * eqWeight r i

/-- Position `i` as a point of the hypercube with `n` coordinates, most significant bit first. -/
def bitsOf (n i : Nat) : List F := (List.range n).map fun j => if i.testBit (n - 1 - j) then 1 else 0

/-- The sum of the coefficients that a row lists for column `c` (`column` says where a variable
sits). -/
def entry {I : Type} (column : I → Nat) (row : List (F × I)) (c : Nat) : F :=
  ((row.filter fun t => column t.2 = c).map fun t => t.1).sum

end Zkp.Ml
