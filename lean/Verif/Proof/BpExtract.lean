/- Extraction for Bulletproofs: coefficients of the polynomials behind several accepted proofs. -/
import Verif.Proof.BulletproofsComplete
import Mathlib.LinearAlgebra.Lagrange
import Mathlib.Tactic.LinearCombination
import Mathlib.Tactic.Module

set_option linter.unusedSectionVars false
set_option linter.unusedSimpArgs false

namespace Zkp.Bp

variable {F : Type} [Field F]
variable {G : Type} [AddCommGroup G] [Module F G]
variable {M : Type} [AddCommGroup M] [Module F M]

/-! ### Interpolation -/

/-- The coefficient of degree `i` of the polynomial of degree below `m` through the points `(x j, v j)`. -/
noncomputable def coef (m : Nat) (x : Nat → F) (i : Nat) (v : Nat → M) : M :=
  ∑ j ∈ Finset.range m, (Lagrange.basis (Finset.range m) x j).coeff i • v j

theorem coef_map (m : Nat) (x : Nat → F) (i : Nat) (v : Nat → M) (f : M →ₗ[F] G) :
    f (coef m x i v) = coef m x i fun j => f (v j) := by
  unfold coef
  rw [map_sum]
  exact Finset.sum_congr rfl fun j _ => map_smul _ _ _

theorem coef_congr {m : Nat} {x : Nat → F} {i : Nat} {v w : Nat → M} (h : ∀ j < m, v j = w j) :
    coef m x i v = coef m x i w :=
  Finset.sum_congr rfl fun j hj => by rw [h j (Finset.mem_range.mp hj)]

/-- The polynomial goes through the points. -/
theorem coef_at {m : Nat} {x : Nat → F} (hx : Set.InjOn x (Finset.range m)) (v : Nat → M) {k : Nat} (hk : k < m) :
    ∑ i ∈ Finset.range m, x k ^ i • coef m x i v = v k := by
  unfold coef
  simp only [Finset.smul_sum, smul_smul]
  rw [Finset.sum_comm]
  simp only [← Finset.sum_smul]
  have e : ∀ j ∈ Finset.range m, ∑ i ∈ Finset.range m, x k ^ i * (Lagrange.basis (Finset.range m) x j).coeff i =
      if j = k then 1 else 0 := by
    intro j hj
    have hd : (Lagrange.basis (Finset.range m) x j).natDegree < m := by
      rw [Lagrange.natDegree_basis hx hj, Finset.card_range]
      omega
    have := Polynomial.eval_eq_sum_range' hd (x k)
    rw [Finset.sum_congr rfl fun i _ => mul_comm (x k ^ i) _, ← this]
    split
    · rename_i h
      rw [← h, Lagrange.eval_basis_self hx hj]
    · rename_i h
      exact Lagrange.eval_basis_of_ne h (Finset.mem_range.mpr hk)
  rw [Finset.sum_congr rfl fun j hj => by rw [e j hj]]
  simp only [ite_smul, one_smul, zero_smul, Finset.sum_ite_eq', Finset.mem_range, hk, if_true]

/-- The polynomial is determined by the points. -/
theorem coef_of {m : Nat} {x : Nat → F} (hx : Set.InjOn x (Finset.range m)) {v A : Nat → M}
    (h : ∀ j < m, v j = ∑ i ∈ Finset.range m, x j ^ i • A i) {i : Nat} (hi : i < m) : coef m x i v = A i := by
  unfold coef
  rw [Finset.sum_congr rfl fun j hj => by rw [h j (Finset.mem_range.mp hj)]]
  simp only [Finset.smul_sum, smul_smul]
  rw [Finset.sum_comm]
  simp only [← Finset.sum_smul]
  have e : ∀ l ∈ Finset.range m, ∑ j ∈ Finset.range m, (Lagrange.basis (Finset.range m) x j).coeff i * x j ^ l =
      if l = i then 1 else 0 := by
    intro l hl
    have := Lagrange.eq_interpolate (f := (Polynomial.X ^ l : Polynomial F)) hx (by
      rw [Polynomial.degree_X_pow, Finset.card_range]
      exact_mod_cast Finset.mem_range.mp hl)
    have := congrArg (fun p => Polynomial.coeff p i) this
    simp only [Lagrange.interpolate_apply, Polynomial.finsetSum_coeff, Polynomial.coeff_C_mul, Polynomial.eval_pow,
      Polynomial.eval_X, Polynomial.coeff_X_pow] at this
    rw [Finset.sum_congr rfl fun j _ => mul_comm _ (x j ^ l), ← this]
    simp only [eq_comm]
  rw [Finset.sum_congr rfl fun j hj => by rw [e j hj]]
  simp only [ite_smul, one_smul, zero_smul, Finset.sum_ite_eq', Finset.mem_range, hi, if_true]

/-- A polynomial with too many zeros is zero. -/
theorem pol_zero {m : Nat} {x : Nat → F} (hx : Set.InjOn x (Finset.range m)) {f : Nat → F}
    (h : ∀ j < m, ∑ i ∈ Finset.range m, x j ^ i * f i = 0) {i : Nat} (hi : i < m) : f i = 0 := by
  have := coef_of (M := F) hx (v := fun _ => 0) (A := f) (fun j hj => by simpa using (h j hj).symm) hi
  rw [← this]
  simp [coef]

/-! ### The equation behind one choice of `y` and `z` -/

/-- The coefficient of degree four of the inner product of two polynomials. -/
theorem degree_four {x : Nat → F} (hx : Set.InjOn x (Finset.range 11)) (N : Nat) (l r : Nat → Nat → F) (tx : Nat → F)
    (l2 l3 l4 l5 r0 r1 r2 r3 r4 r5 : Nat → F)
    (hl : ∀ k < 11, ∀ t < N, l k t = x k ^ 2 * l2 t + x k ^ 3 * l3 t + x k ^ 4 * l4 t + x k ^ 5 * l5 t)
    (hr : ∀ k < 11, ∀ t < N, r k t = r0 t + x k * r1 t + x k ^ 2 * r2 t + x k ^ 3 * r3 t + x k ^ 4 * r4 t
      + x k ^ 5 * r5 t)
    (ht : ∀ k < 11, tx k = ∑ t ∈ Finset.range N, l k t * r k t) :
    coef 11 x 4 tx = ∑ t ∈ Finset.range N, (l2 t * r2 t + l3 t * r1 t + l4 t * r0 t) := by
  let a : Nat → Nat → F := fun i t => match i with
    | 2 => l2 t * r0 t
    | 3 => l2 t * r1 t + l3 t * r0 t
    | 4 => l2 t * r2 t + l3 t * r1 t + l4 t * r0 t
    | 5 => l2 t * r3 t + l3 t * r2 t + l4 t * r1 t + l5 t * r0 t
    | 6 => l2 t * r4 t + l3 t * r3 t + l4 t * r2 t + l5 t * r1 t
    | 7 => l2 t * r5 t + l3 t * r4 t + l4 t * r3 t + l5 t * r2 t
    | 8 => l3 t * r5 t + l4 t * r4 t + l5 t * r3 t
    | 9 => l4 t * r5 t + l5 t * r4 t
    | 10 => l5 t * r5 t
    | _ => 0
  refine (coef_of hx (v := tx) (A := fun i => ∑ t ∈ Finset.range N, a i t) (fun k hk => ?_) (by omega)).trans rfl
  rw [ht k hk]
  simp only [smul_eq_mul, Finset.mul_sum]
  rw [Finset.sum_comm]
  refine Finset.sum_congr rfl fun t ht => ?_
  have ht := Finset.mem_range.mp ht
  rw [hl k hk t ht, hr k hk t ht]
  simp only [Finset.sum_range_succ, Finset.sum_range_zero, a]
  ring

/-- What the equations for all `z` and all `y` say. -/
theorem all_zero {N n : Nat} {y : Nat → F} {z : Nat → Nat → F} (hy : Set.InjOn y (Finset.range N))
    (hz : ∀ i < N, Set.InjOn (z i) (Finset.range (3 * n + 1))) (hN : 0 < N) (q pL pR pO : Nat → F)
    (h : ∀ i < N, ∀ j < 3 * n + 1, ∑ t ∈ Finset.range N, y i ^ t * q t + ∑ t ∈ Finset.range n,
      z i j ^ (t + 1) * (pL t + z i j ^ n * pR t + z i j ^ n * z i j ^ n * pO t) = 0) :
    (∀ t < N, q t = 0) ∧ ∀ t < n, pL t = 0 ∧ pR t = 0 ∧ pO t = 0 := by
  let f : Nat → Nat → F := fun i m => if m = 0 then ∑ t ∈ Finset.range N, y i ^ t * q t else
    if m - 1 < n then pL (m - 1) else if m - 1 < 2 * n then pR (m - 1 - n) else pO (m - 1 - 2 * n)
  have hf : ∀ i < N, ∀ m < 3 * n + 1, f i m = 0 := by
    intro i hi m hm
    refine pol_zero (hz i hi) (fun j hj => ?_) hm
    rw [← h i hi j hj, Finset.sum_range_succ', show 3 * n = n + n + n by ring, Finset.sum_range_add, Finset.sum_range_add,
      ← Finset.sum_add_distrib, ← Finset.sum_add_distrib, add_comm]
    congr 1
    · simp [f]
    · refine Finset.sum_congr rfl fun t ht => ?_
      have ht := Finset.mem_range.mp ht
      have e1 : f i (t + 1) = pL t := by simp [f, ht]
      have e2 : f i (n + t + 1) = pR t := by
        simp only [f]
        rw [if_neg (by omega), if_neg (by omega), if_pos (by omega)]
        congr 1; omega
      have e3 : f i (n + n + t + 1) = pO t := by
        simp only [f]
        rw [if_neg (by omega), if_neg (by omega), if_neg (by omega)]
        congr 1; omega
      rw [e1, e2, e3]
      ring
  refine ⟨fun t ht => pol_zero hy (fun i hi => ?_) ht, fun t ht => ⟨?_, ?_, ?_⟩⟩
  · have := hf i hi 0 (by omega)
    simpa [f] using this
  · have := hf 0 hN (t + 1) (by omega)
    simpa [f, ht] using this
  · have := hf 0 hN (n + t + 1) (by omega)
    simp only [f] at this
    rw [if_neg (by omega), if_neg (by omega), if_pos (by omega)] at this
    rw [← this]; congr 1; omega
  · have := hf 0 hN (n + n + t + 1) (by omega)
    simp only [f] at this
    rw [if_neg (by omega), if_neg (by omega), if_neg (by omega)] at this
    rw [← this]; congr 1; omega

/-- The equation of degree four, sorted by powers of `y` and `z`. -/
theorem sorted (n N k nw : Nat) (hn : n ≤ N) (hw : nw ≤ N) (y z : F) (hy : ∀ t < N, y ^ t ≠ 0)
    (aL aR aO w s : Nat → F) (CL CR CO : Nat → Nat → F)
    (h : ∑ t ∈ Finset.range N,
        ((aL t + (y ^ t)⁻¹ * (if t < n then z ^ (t + 1) * z ^ n else 0)) * (y ^ t * aR t + (if t < n then z ^ (t + 1) else 0))
        + aO t * (-(y ^ t) + (if t < n then z ^ (t + 1) * (z ^ n * z ^ n) else 0))
        + w t * -∑ a ∈ Finset.range n, z ^ (a + 1) * (if t < nw then CL a (t + k) + z ^ n * CR a (t + k)
            + z ^ n * z ^ n * CO a (t + k) else 0)) =
      ∑ i ∈ Finset.range N, (y ^ i)⁻¹ * (if i < n then z ^ (i + 1) * z ^ n else 0) * (if i < n then z ^ (i + 1) else 0) +
      ∑ a ∈ Finset.range n, z ^ (a + 1) * ∑ j ∈ Finset.range k,
        (CL a j + z ^ n * CR a j + z ^ n * z ^ n * CO a j) * s j) :
    ∑ t ∈ Finset.range N, y ^ t * (aL t * aR t - aO t) + ∑ t ∈ Finset.range n, z ^ (t + 1) *
      ((aL t - (∑ j ∈ Finset.range k, CL t j * s j + ∑ j ∈ Finset.range nw, CL t (j + k) * w j)) +
       z ^ n * (aR t - (∑ j ∈ Finset.range k, CR t j * s j + ∑ j ∈ Finset.range nw, CR t (j + k) * w j)) +
       z ^ n * z ^ n * (aO t - (∑ j ∈ Finset.range k, CO t j * s j + ∑ j ∈ Finset.range nw, CO t (j + k) * w j))) = 0 := by
  have e1 : ∑ t ∈ Finset.range N,
        ((aL t + (y ^ t)⁻¹ * (if t < n then z ^ (t + 1) * z ^ n else 0)) * (y ^ t * aR t + (if t < n then z ^ (t + 1) else 0))
        + aO t * (-(y ^ t) + (if t < n then z ^ (t + 1) * (z ^ n * z ^ n) else 0))) =
      ∑ t ∈ Finset.range N, y ^ t * (aL t * aR t - aO t) +
      ∑ i ∈ Finset.range N, (y ^ i)⁻¹ * (if i < n then z ^ (i + 1) * z ^ n else 0) * (if i < n then z ^ (i + 1) else 0) +
      ∑ i ∈ Finset.range n, z ^ (i + 1) * (aL i + z ^ n * aR i + z ^ n * z ^ n * aO i) := by
    rw [← sum_if_lt n N hn, ← Finset.sum_add_distrib, ← Finset.sum_add_distrib]
    refine Finset.sum_congr rfl fun t ht => ?_
    have hyt : (y ^ t)⁻¹ * y ^ t = 1 := inv_mul_cancel₀ (hy t (Finset.mem_range.mp ht))
    by_cases htn : t < n
    · simp only [if_pos htn]
      linear_combination (z ^ (t + 1) * z ^ n * aR t) * hyt
    · simp only [if_neg htn]
      ring
  have e2 : ∑ t ∈ Finset.range N, w t * -∑ a ∈ Finset.range n, z ^ (a + 1) * (if t < nw then CL a (t + k)
      + z ^ n * CR a (t + k) + z ^ n * z ^ n * CO a (t + k) else 0) = -∑ a ∈ Finset.range n, z ^ (a + 1) *
      ∑ j ∈ Finset.range nw, (CL a (j + k) + z ^ n * CR a (j + k) + z ^ n * z ^ n * CO a (j + k)) * w j := by
    have : ∀ t ∈ Finset.range N, (w t * -∑ a ∈ Finset.range n, z ^ (a + 1) * (if t < nw then CL a (t + k)
        + z ^ n * CR a (t + k) + z ^ n * z ^ n * CO a (t + k) else 0)) = ∑ a ∈ Finset.range n, -(z ^ (a + 1) *
        (if t < nw then (CL a (t + k) + z ^ n * CR a (t + k) + z ^ n * z ^ n * CO a (t + k)) * w t else 0)) := by
      intro t _
      rw [← Finset.sum_neg_distrib, Finset.mul_sum]
      refine Finset.sum_congr rfl fun a _ => ?_
      split <;> ring
    rw [Finset.sum_congr rfl this, Finset.sum_comm, ← Finset.sum_neg_distrib]
    refine Finset.sum_congr rfl fun a _ => ?_
    rw [Finset.sum_neg_distrib, ← Finset.mul_sum, sum_if_lt nw N hw]
  rw [Finset.sum_add_distrib, e1, e2] at h
  have r1 : ∀ (m : Nat) (f1 f2 f3 g : Nat → F), ∑ j ∈ Finset.range m, (f1 j + z ^ n * f2 j + z ^ n * z ^ n * f3 j) * g j =
      ∑ j ∈ Finset.range m, f1 j * g j + z ^ n * ∑ j ∈ Finset.range m, f2 j * g j +
      z ^ n * z ^ n * ∑ j ∈ Finset.range m, f3 j * g j := by
    intro m f1 f2 f3 g
    rw [Finset.mul_sum, Finset.mul_sum, ← Finset.sum_add_distrib, ← Finset.sum_add_distrib]
    refine Finset.sum_congr rfl fun j _ => ?_
    ring
  have e3 : ∑ t ∈ Finset.range n, z ^ (t + 1) *
      ((aL t - (∑ j ∈ Finset.range k, CL t j * s j + ∑ j ∈ Finset.range nw, CL t (j + k) * w j)) +
       z ^ n * (aR t - (∑ j ∈ Finset.range k, CR t j * s j + ∑ j ∈ Finset.range nw, CR t (j + k) * w j)) +
       z ^ n * z ^ n * (aO t - (∑ j ∈ Finset.range k, CO t j * s j + ∑ j ∈ Finset.range nw, CO t (j + k) * w j))) =
      ∑ i ∈ Finset.range n, z ^ (i + 1) * (aL i + z ^ n * aR i + z ^ n * z ^ n * aO i) -
      ∑ a ∈ Finset.range n, z ^ (a + 1) * ∑ j ∈ Finset.range nw, (CL a (j + k) + z ^ n * CR a (j + k)
        + z ^ n * z ^ n * CO a (j + k)) * w j -
      ∑ a ∈ Finset.range n, z ^ (a + 1) * ∑ j ∈ Finset.range k,
        (CL a j + z ^ n * CR a j + z ^ n * z ^ n * CO a j) * s j := by
    rw [← Finset.sum_sub_distrib, ← Finset.sum_sub_distrib]
    refine Finset.sum_congr rfl fun t _ => ?_
    rw [r1 k (CL t) (CR t) (CO t), r1 nw (fun j => CL t (j + k)) (fun j => CR t (j + k)) (fun j => CO t (j + k))]
    ring
  rw [e3]
  linear_combination h

end Zkp.Bp
