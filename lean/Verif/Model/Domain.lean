/- Meaning of the external evaluation-domain operations (`ark_poly`), used by Groth16, Marlin, Plonk
and ASVC.  These are the mathematical definitions of the transforms, not the fast algorithms; see
DESIGN.md, trusted base. -/
import Mathlib.Algebra.Field.Defs
import Mathlib.Algebra.BigOperators.Group.Finset.Basic
import Mathlib.RingTheory.RootsOfUnity.PrimitiveRoots
import Mathlib.Algebra.Polynomial.Eval.Defs

namespace Zkp

open Polynomial

/-- `ark_poly::GeneralEvaluationDomain` (used at groth16/src/r1cs_to_qap.rs:63-65 and elsewhere):
number of elements, generator of the subgroup, and the multiplicative generator used as coset
offset. -/
structure Domain (F : Type) where
  size : Nat
  ω : F
  g : F

namespace Domain

variable {F : Type} [Field F]

/-- What a domain built by `ark_poly` satisfies: `ω` has exact order `size`, the coset `g·⟨ω⟩` is
disjoint from the zeros of the vanishing polynomial.
`GeneralEvaluationDomain::new` at groth16/src/r1cs_to_qap.rs:58-70, marlin/src/ahp/prover.rs:125-130. -/
structure Valid (D : Domain F) : Prop where
  pos : 0 < D.size
  prim : IsPrimitiveRoot D.ω D.size
  coset : D.g ^ D.size ≠ 1
  gne : D.g ≠ 0

/-- `domain.element(i)`. Used at plonk/src/utils.rs:23. -/
def element (D : Domain F) (i : Nat) : F := D.ω ^ i

/-- `fft`: evaluate the polynomial with the given coefficients (resized to the domain size) at every
domain element. Used at marlin/src/ahp/prover.rs:165, arithmetic.rs:149-153. -/
def fft (D : Domain F) (c : List F) : List F :=
  (List.range D.size).map fun i => ∑ j ∈ Finset.range D.size, c.getD j 0 * D.ω ^ (i * j)

/-- `ifft`: the coefficients of the interpolation polynomial.
Used at groth16/src/r1cs_to_qap.rs:144-145, 161, marlin/src/ahp/prover.rs:257. -/
def ifft (D : Domain F) (v : List F) : List F :=
  (List.range D.size).map fun j =>
    (D.size : F)⁻¹ * ∑ i ∈ Finset.range D.size, v.getD i 0 * (D.ω⁻¹) ^ (i * j)

/-- `coset_fft`: evaluations at `g·ω^i`.
Used at groth16/src/r1cs_to_qap.rs:147-148, 162, plonk/src/ahp/indexer/mod.rs:210-221. -/
def cosetFft (D : Domain F) (c : List F) : List F := D.fft (c.mapIdx fun j x => x * D.g ^ j)

/-- `coset_ifft`. Used at groth16/src/r1cs_to_qap.rs:169. -/
def cosetIfft (D : Domain F) (v : List F) : List F := (D.ifft v).mapIdx fun j x => x * (D.g⁻¹) ^ j

/-- `evaluate_vanishing_polynomial`. Used at groth16/src/r1cs_to_qap.rs:67, marlin/src/ahp/verifier.rs:122-174. -/
def vanishing (D : Domain F) (t : F) : F := t ^ D.size - 1

/-- `divide_by_vanishing_poly_on_coset_in_place`. Used at groth16/src/r1cs_to_qap.rs:168. -/
def divVanishingOnCoset (D : Domain F) (v : List F) : List F := v.map fun x => x * (D.vanishing D.g)⁻¹

/-- `evaluate_all_lagrange_coefficients`: the values at `t` of the Lagrange polynomials
`(1/n)·Σ_j (X/ω^i)^j`. -/
def lagrange (D : Domain F) (t : F) : List F :=
  (List.range D.size).map fun i =>
    (D.size : F)⁻¹ * ∑ j ∈ Finset.range D.size, (t * (D.ω⁻¹) ^ i) ^ j

end Domain

/-- The polynomial with the given coefficients (`DensePolynomial`). Used at marlin/src/ahp/prover.rs:257. -/
noncomputable def polyOf {F : Type} [Field F] (c : List F) : F[X] :=
  ∑ j ∈ Finset.range c.length, C (c.getD j 0) * X ^ j

end Zkp
