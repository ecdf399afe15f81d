/- An evaluation domain, a domain constructor and a pairing over the field with 17 elements, used in
examples. -/
import Verif.Proof.F17
import Verif.Model.Domain
import Mathlib.Algebra.Algebra.Bilinear

namespace Zkp.Ex17

/-- The subgroup of order 4, offset 3. -/
def D4 : Domain F17 := ⟨4, 4, 3⟩

theorem d4_valid : D4.Valid := by
  refine ⟨by decide, ?_, by decide, by decide⟩
  exact IsPrimitiveRoot.mk_of_lt _ (by decide) (by decide) (by
    intro l h0 hl
    have hl : l < 4 := hl
    match l, h0, hl with
    | 1, _, _ => decide
    | 2, _, _ => decide
    | 3, _, _ => decide)

/-- `EvaluationDomain::new` for the example. -/
def mk (n : Nat) : Option (Domain F17) := if n ≤ 4 then some D4 else none

/-- A bilinear map that is not degenerate. -/
noncomputable def e : F17 →ₗ[F17] F17 →ₗ[F17] F17 := LinearMap.mul F17 F17

/-- 5 is not a fourth root of unity modulo 17. -/
theorem five_not_root : ∀ i < D4.size, (5 : F17) ≠ D4.ω ^ i := by
  intro i hi
  have hi : i < 4 := hi
  match i, hi with
  | 0, _ => decide
  | 1, _ => decide
  | 2, _ => decide
  | 3, _ => decide

end Zkp.Ex17
