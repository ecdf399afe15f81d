/- The field with 17 elements, used in examples. -/
import Mathlib.Algebra.Field.ZMod
import Mathlib.Tactic.NormNum.Prime

namespace Zkp

instance f17_prime : Fact (Nat.Prime 17) := ⟨by norm_num⟩

/-- The field with 17 elements. -/
abbrev F17 := ZMod 17

end Zkp
