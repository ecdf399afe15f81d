/- Meaning of the external polynomial operations (`ark_poly::DensePolynomial`), used by ASVC, Marlin
and Plonk.  A dense polynomial is a mathematical polynomial; addition, multiplication, evaluation and
division with remainder are the mathematical operations.  See DESIGN.md, trusted base. -/
import Mathlib.Algebra.Polynomial.FieldDivision
import Verif.Model.Group

namespace Zkp

open Polynomial

variable {F : Type} [Field F]

/-- `polynomial.coeffs` / `polynomial.iter()`: the coefficients, lowest first (`ark_poly` keeps the
empty list for the zero polynomial, here `[0]`; the two have the same multi-scalar products). -/
noncomputable def coeffs (p : F[X]) : List F := (List.range (p.natDegree + 1)).map p.coeff

end Zkp
