/- Facts about the evaluation-domain operations. -/
import Verif.Model.Domain
import Mathlib.LinearAlgebra.Lagrange
import Mathlib.Algebra.Ring.GeomSum
import Mathlib.Algebra.Polynomial.FieldDivision
import Mathlib.Data.List.GetD
import Mathlib.Tactic.LinearCombination

set_option linter.unusedSectionVars false

namespace Zkp

open Polynomial

variable {F : Type} [Field F]

theorem polyOf_eval (c : List F) (t : F) :
    (polyOf c).eval t = ∑ j ∈ Finset.range c.length, c.getD j 0 * t ^ j := by
  simp [polyOf, eval_finset_sum]

theorem polyOf_degree (c : List F) : (polyOf c).degree < c.length := by
  unfold polyOf
  refine lt_of_le_of_lt (degree_sum_le _ _) ?_
  rw [Finset.sup_lt_iff (by exact_mod_cast WithBot.bot_lt_coe _)]
  intro j hj
  refine lt_of_le_of_lt (degree_C_mul_X_pow_le _ _) ?_
  exact_mod_cast Finset.mem_range.mp hj

theorem polyOf_coeff (c : List F) (k : Nat) : (polyOf c).coeff k = c.getD k 0 := by
  unfold polyOf
  rw [finset_sum_coeff]
  simp only [coeff_C_mul, coeff_X_pow]
  by_cases hk : k < c.length
  · rw [Finset.sum_eq_single k]
    · simp
    · intro j _ hj; simp [hj.symm]
    · intro h; exact absurd (Finset.mem_range.mpr hk) h
  · rw [List.getD_eq_default _ _ (by omega)]
    apply Finset.sum_eq_zero
    intro j hj
    have := Finset.mem_range.mp hj
    simp [show k ≠ j by omega]

namespace Domain

variable {D : Domain F}

theorem Valid.size_ne (h : D.Valid) : (D.size : F) ≠ 0 := by
  haveI : NeZero D.size := ⟨h.pos.ne'⟩
  exact (h.prim.neZero').out

theorem Valid.ω_ne (h : D.Valid) : D.ω ≠ 0 := h.prim.ne_zero h.pos.ne'

theorem Valid.ω_pow (h : D.Valid) : D.ω ^ D.size = 1 := h.prim.pow_eq_one

theorem Valid.inj (h : D.Valid) {i j : Nat} (hi : i < D.size) (hj : j < D.size)
    (he : D.ω ^ i = D.ω ^ j) : i = j := h.prim.pow_inj hi hj he

/-- Orthogonality of the powers. -/
theorem Valid.orth (h : D.Valid) {a b : Nat} (ha : a < D.size) (hb : b < D.size) :
    ∑ j ∈ Finset.range D.size, (D.ω ^ a * (D.ω⁻¹) ^ b) ^ j = if a = b then (D.size : F) else 0 := by
  split
  · rename_i hab
    subst hab
    have : D.ω ^ a * (D.ω⁻¹) ^ a = 1 := by
      rw [← mul_pow, mul_inv_cancel₀ h.ω_ne, one_pow]
    rw [this]; simp
  · rename_i hab
    have hx : D.ω ^ a * (D.ω⁻¹) ^ b ≠ 1 := by
      intro hx
      apply hab
      apply h.inj ha hb
      rw [inv_pow] at hx
      exact eq_of_div_eq_one (by rwa [div_eq_mul_inv])
    have hp : (D.ω ^ a * (D.ω⁻¹) ^ b) ^ D.size = 1 := by
      rw [mul_pow, ← pow_mul, ← pow_mul, Nat.mul_comm a, Nat.mul_comm b, pow_mul, pow_mul, inv_pow,
        h.ω_pow]
      simp
    have := geom_sum_mul (D.ω ^ a * (D.ω⁻¹) ^ b) D.size
    rw [hp, sub_self] at this
    exact (mul_eq_zero.mp this).resolve_right (sub_ne_zero.mpr hx)

@[simp] theorem ifft_length (v : List F) : (D.ifft v).length = D.size := by simp [ifft]
@[simp] theorem fft_length (v : List F) : (D.fft v).length = D.size := by simp [fft]
@[simp] theorem lagrange_length (t : F) : (D.lagrange t).length = D.size := by simp [lagrange]
@[simp] theorem cosetIfft_length (v : List F) : (D.cosetIfft v).length = D.size := by
  simp [cosetIfft]
@[simp] theorem cosetFft_length (v : List F) : (D.cosetFft v).length = D.size := by
  simp [cosetFft]

theorem ifft_getD (v : List F) {j : Nat} (hj : j < D.size) : (D.ifft v).getD j 0 =
    (D.size : F)⁻¹ * ∑ i ∈ Finset.range D.size, v.getD i 0 * (D.ω⁻¹) ^ (i * j) := by
  rw [List.getD_eq_getElem _ _ (by simpa using hj)]; simp [ifft]

theorem fft_getD (v : List F) {i : Nat} (hi : i < D.size) : (D.fft v).getD i 0 =
    ∑ j ∈ Finset.range D.size, v.getD j 0 * D.ω ^ (i * j) := by
  rw [List.getD_eq_getElem _ _ (by simpa using hi)]; simp [fft]

theorem lagrange_getD (t : F) {i : Nat} (hi : i < D.size) : (D.lagrange t).getD i 0 =
    (D.size : F)⁻¹ * ∑ j ∈ Finset.range D.size, (t * (D.ω⁻¹) ^ i) ^ j := by
  rw [List.getD_eq_getElem _ _ (by simpa using hi)]; simp [lagrange]

theorem mapIdx_getD (c : List F) (f : Nat → F) (j : Nat) :
    (c.mapIdx fun j x => x * f j).getD j 0 = c.getD j 0 * f j := by
  by_cases hj : j < c.length
  · rw [List.getD_eq_getElem _ _ (by simpa using hj), List.getD_eq_getElem _ _ hj]; simp
  · rw [List.getD_eq_default _ _ (by simpa using hj), List.getD_eq_default _ _ (by omega)]; simp

/-- Interpolation: the value at any point in terms of the Lagrange coefficients. -/
theorem eval_ifft (v : List F) (t : F) : (polyOf (D.ifft v)).eval t =
    ∑ i ∈ Finset.range D.size, v.getD i 0 * (D.lagrange t).getD i 0 := by
  rw [polyOf_eval, ifft_length]
  have : ∀ j ∈ Finset.range D.size, (D.ifft v).getD j 0 * t ^ j =
      ∑ i ∈ Finset.range D.size, v.getD i 0 * ((D.size : F)⁻¹ * (t * (D.ω⁻¹) ^ i) ^ j) := by
    intro j hj
    rw [ifft_getD v (Finset.mem_range.mp hj), Finset.mul_sum, Finset.sum_mul]
    apply Finset.sum_congr rfl
    intro i _
    rw [mul_pow, ← pow_mul]; ring
  rw [Finset.sum_congr rfl this, Finset.sum_comm]
  apply Finset.sum_congr rfl
  intro i hi
  rw [lagrange_getD t (Finset.mem_range.mp hi), Finset.mul_sum, Finset.mul_sum]

theorem Valid.lagrange_element (h : D.Valid) {k i : Nat} (hk : k < D.size) (hi : i < D.size) :
    (D.lagrange (D.ω ^ k)).getD i 0 = if k = i then 1 else 0 := by
  rw [lagrange_getD _ hi, h.orth hk hi]
  split
  · exact inv_mul_cancel₀ h.size_ne
  · simp

/-- Interpolation: the values at the domain elements. -/
theorem Valid.eval_ifft_element (h : D.Valid) (v : List F) {k : Nat} (hk : k < D.size) :
    (polyOf (D.ifft v)).eval (D.ω ^ k) = v.getD k 0 := by
  rw [eval_ifft, Finset.sum_eq_single k]
  · rw [h.lagrange_element hk hk, if_pos rfl, mul_one]
  · intro i hi hne
    rw [h.lagrange_element hk (Finset.mem_range.mp hi), if_neg hne.symm, mul_zero]
  · intro hn; exact absurd (Finset.mem_range.mpr hk) hn

theorem Valid.fft_eq_eval (c : List F) (hc : c.length ≤ D.size) {i : Nat} (hi : i < D.size) :
    (D.fft c).getD i 0 = (polyOf c).eval (D.ω ^ i) := by
  rw [fft_getD _ hi, polyOf_eval]
  rw [← Finset.sum_subset (Finset.range_subset_range.mpr hc)]
  · apply Finset.sum_congr rfl
    intro j _
    rw [pow_mul]
  · intro j _ hj
    have : c.length ≤ j := by simpa using hj
    rw [List.getD_eq_default _ _ this, zero_mul]

theorem Valid.cosetFft_eq_eval (c : List F) (hc : c.length ≤ D.size) {i : Nat} (hi : i < D.size) :
    (D.cosetFft c).getD i 0 = (polyOf c).eval (D.g * D.ω ^ i) := by
  unfold cosetFft
  rw [Valid.fft_eq_eval _ (by simpa using hc) hi, polyOf_eval, polyOf_eval, List.length_mapIdx]
  apply Finset.sum_congr rfl
  intro j _
  rw [mapIdx_getD c (fun j => D.g ^ j), mul_pow]; ring

theorem Valid.eval_cosetIfft (h : D.Valid) (v : List F) {k : Nat} (hk : k < D.size) :
    (polyOf (D.cosetIfft v)).eval (D.g * D.ω ^ k) = v.getD k 0 := by
  rw [← h.eval_ifft_element v hk]
  unfold cosetIfft
  rw [polyOf_eval, polyOf_eval, List.length_mapIdx]
  apply Finset.sum_congr rfl
  intro j _
  rw [mapIdx_getD _ (fun j => D.g⁻¹ ^ j), mul_pow]
  have : D.g⁻¹ ^ j * D.g ^ j = 1 := by rw [← mul_pow, inv_mul_cancel₀ h.gne, one_pow]
  linear_combination ((D.ifft v).getD j 0 * (D.ω ^ k) ^ j) * this

/-- Two polynomials of degree below the domain size that agree on the domain are equal. -/
theorem Valid.eq_of_agree (h : D.Valid) {P Q : F[X]} (hP : P.degree < D.size) (hQ : Q.degree < D.size)
    (he : ∀ k < D.size, P.eval (D.ω ^ k) = Q.eval (D.ω ^ k)) : P = Q := by
  refine eq_of_degrees_lt_of_eval_index_eq (s := Finset.range D.size) (v := fun k => D.ω ^ k) ?_ ?_ ?_ ?_
  · intro i hi j hj hij
    exact h.inj (by simpa using hi) (by simpa using hj) hij
  · simpa using hP
  · simpa using hQ
  · intro k hk; exact he k (Finset.mem_range.mp hk)

theorem Valid.eq_of_agree_coset (h : D.Valid) {P Q : F[X]} (hP : P.degree < D.size)
    (hQ : Q.degree < D.size)
    (he : ∀ k < D.size, P.eval (D.g * D.ω ^ k) = Q.eval (D.g * D.ω ^ k)) : P = Q := by
  refine eq_of_degrees_lt_of_eval_index_eq (s := Finset.range D.size) (v := fun k => D.g * D.ω ^ k)
    ?_ ?_ ?_ ?_
  · intro i hi j hj hij
    exact h.inj (by simpa using hi) (by simpa using hj) (mul_left_cancel₀ h.gne hij)
  · simpa using hP
  · simpa using hQ
  · intro k hk; exact he k (Finset.mem_range.mp hk)

theorem monic_vanishing (h : D.Valid) : (X ^ D.size - 1 : F[X]).Monic := by
  have := monic_X_pow_sub_C (1 : F) h.pos.ne'
  simpa using this

theorem degree_vanishing (h : D.Valid) : (X ^ D.size - 1 : F[X]).degree = D.size := by
  have := degree_X_pow_sub_C h.pos (1 : F)
  simpa using this

/-- A polynomial vanishing on the domain is a multiple of `X^n - 1`. -/
theorem Valid.dvd_of_zero (h : D.Valid) {P : F[X]} (he : ∀ k < D.size, P.eval (D.ω ^ k) = 0) :
    ∃ Q, P = Q * (X ^ D.size - 1) ∧ Q = P /ₘ (X ^ D.size - 1) := by
  have hm := monic_vanishing h
  have hmod : P %ₘ (X ^ D.size - 1) = 0 := by
    apply h.eq_of_agree
    · have := degree_modByMonic_lt P hm
      rwa [degree_vanishing h] at this
    · simp
    · intro k hk
      have := modByMonic_add_div P (X ^ D.size - 1 : F[X])
      have h2 := congrArg (eval (D.ω ^ k)) this
      have h3 : (D.ω ^ k) ^ D.size = 1 := by rw [← pow_mul, Nat.mul_comm, pow_mul, h.ω_pow, one_pow]
      simp [he k hk, h3] at h2
      simpa using h2
  refine ⟨P /ₘ (X ^ D.size - 1), ?_, rfl⟩
  have := modByMonic_add_div P (X ^ D.size - 1 : F[X])
  rw [hmod, zero_add] at this
  rw [mul_comm]; exact this.symm

theorem eval_vanishing (t : F) : (X ^ D.size - 1 : F[X]).eval t = D.vanishing t := by
  simp [vanishing]

theorem Valid.vanishing_element (h : D.Valid) (k : Nat) : D.vanishing (D.ω ^ k) = 0 := by
  rw [vanishing, ← pow_mul, Nat.mul_comm, pow_mul, h.ω_pow, one_pow, sub_self]

theorem Valid.vanishing_coset (h : D.Valid) (k : Nat) :
    D.vanishing (D.g * D.ω ^ k) = D.vanishing D.g := by
  simp only [vanishing]
  rw [mul_pow, ← pow_mul, Nat.mul_comm k, pow_mul, h.ω_pow, one_pow, mul_one]

theorem Valid.vanishing_g (h : D.Valid) : D.vanishing D.g ≠ 0 := sub_ne_zero.mpr h.coset

/-- Discrete transforms are mutually inverse. -/
theorem Valid.ifft_fft (h : D.Valid) (c : List F) (hc : c.length = D.size) : D.ifft (D.fft c) = c := by
  have hp : polyOf (D.ifft (D.fft c)) = polyOf c := by
    apply h.eq_of_agree
    · have := polyOf_degree (D.ifft (D.fft c)); rwa [ifft_length] at this
    · have := polyOf_degree c; rwa [hc] at this
    · intro k hk
      rw [h.eval_ifft_element _ hk, Valid.fft_eq_eval _ hc.le hk]
  apply List.ext_getElem (by simp [hc])
  intro i h1 h2
  have := congrArg (fun p => p.coeff i) hp
  simp only [polyOf_coeff] at this
  rwa [List.getD_eq_getElem _ _ h1, List.getD_eq_getElem _ _ h2] at this

theorem Valid.fft_ifft (h : D.Valid) (v : List F) (hv : v.length = D.size) : D.fft (D.ifft v) = v := by
  apply List.ext_getElem (by simp [hv])
  intro i h1 h2
  rw [← List.getD_eq_getElem _ 0 h1, ← List.getD_eq_getElem _ 0 h2,
    Valid.fft_eq_eval _ (by simp) (by simpa using h1), h.eval_ifft_element _ (by simpa using h1)]

end Domain

end Zkp
