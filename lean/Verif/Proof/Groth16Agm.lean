/- Groth16 against provers that combine key elements linearly: the polynomial identity behind an
accepted proof and what follows from it. -/
import Verif.Proof.Groth16
import Verif.Spec.Groth16Alg
import Mathlib.Algebra.MvPolynomial.SchwartzZippel
import Mathlib.Algebra.Polynomial.Roots
import Mathlib.LinearAlgebra.Lagrange

set_option linter.unusedSectionVars false
set_option linter.unusedSimpArgs false

namespace Zkp.Groth16

open Polynomial

variable {F : Type} [Field F]

/-! ### The identity in the trapdoors forces a quotient -/

/-- The part of the identity without powers of `γ`, `δ`, as polynomials in `z` with `α = z`,
`β = z²`, coefficients polynomials in the secret point. -/
theorem extract_inner (aα aβ : F) (a0 : F[X]) (bβ bγ bδ : F) (b0 : F[X])
    (Lu Lv Lw Mu Mv Mw Su Sv Sw Nu Nv Nw : F[X])
    (h1 : ((C (C aα) * X + C (C aβ) * X ^ 2 + C a0) * (C (C bβ) * X ^ 2 + C b0) +
      C (C bγ) * (C Lu * X ^ 2 + C Lv * X + C Lw) + C (C bδ) * (C Mu * X ^ 2 + C Mv * X + C Mw) :
        F[X][X]) =
      X ^ 3 + (C Su * X ^ 2 + C Sv * X + C Sw) + (C Nu * X ^ 2 + C Nv * X + C Nw))
    (h2 : ((C Lu * X ^ 2 + C Lv * X + C Lw) * (C (C bβ) * X ^ 2 + C b0) : F[X][X]) = 0)
    (h3 : ((C Mu * X ^ 2 + C Mv * X + C Mw) * (C (C bβ) * X ^ 2 + C b0) : F[X][X]) = 0) :
    (Su + Nu) * (Sv + Nv) = Sw + Nw := by
  have key : ∀ p0 p1 p2 p3 p4 : F[X],
      (C p4 * X ^ 4 + C p3 * X ^ 3 + C p2 * X ^ 2 + C p1 * X + C p0 : F[X][X]) = 0 →
      p0 = 0 ∧ p1 = 0 ∧ p2 = 0 ∧ p3 = 0 ∧ p4 = 0 := by
    intro p0 p1 p2 p3 p4 h
    have hk := fun k => congrArg (fun p : F[X][X] => p.coeff k) h
    refine ⟨?_, ?_, ?_, ?_, ?_⟩
    · simpa [coeff_X, coeff_C, coeff_X_pow] using hk 0
    · simpa [coeff_X, coeff_C, coeff_X_pow] using hk 1
    · simpa [coeff_X, coeff_C, coeff_X_pow] using hk 2
    · simpa [coeff_X, coeff_C, coeff_X_pow] using hk 3
    · simpa [coeff_X, coeff_C, coeff_X_pow] using hk 4
  obtain ⟨e0, e1, e2, e3, e4⟩ := key
    (a0 * b0 + C bγ * Lw + C bδ * Mw - Sw - Nw)
    (C aα * b0 + C bγ * Lv + C bδ * Mv - Sv - Nv)
    (C aβ * b0 + a0 * C bβ + C bγ * Lu + C bδ * Mu - Su - Nu)
    (C aα * C bβ - 1) (C aβ * C bβ) (by
      simp only [map_add, map_sub, map_mul, map_one]
      linear_combination h1)
  have hb : bβ ≠ 0 := by
    rintro rfl
    simp at e3
  have hB : (C (C bβ) * X ^ 2 + C b0 : F[X][X]) ≠ 0 := by
    intro h
    have := congrArg (fun p : F[X][X] => p.coeff 2) h
    simp [coeff_C, coeff_X_pow] at this
    exact hb this
  have hL := (mul_eq_zero.mp h2).resolve_right hB
  have hM := (mul_eq_zero.mp h3).resolve_right hB
  obtain ⟨l0, l1, l2, -, -⟩ := key Lw Lv Lu 0 0 (by simpa using hL)
  obtain ⟨m0, m1, m2, -, -⟩ := key Mw Mv Mu 0 0 (by simpa using hM)
  have hβ : aβ = 0 := by
    have : aβ * bβ = 0 := by
      have := e4
      rw [← map_mul] at this
      exact C_eq_zero.mp this
    exact (mul_eq_zero.mp this).resolve_right hb
  subst hβ l0 l1 l2 m0 m1 m2
  simp only [map_zero, zero_mul, mul_zero, add_zero, zero_add] at e0 e1 e2
  have e3' : (C aα * C bβ : F[X]) = 1 := sub_eq_zero.mp e3
  have s1 : Sv + Nv = C aα * b0 := by linear_combination -e1
  have s2 : Su + Nu = a0 * C bβ := by linear_combination -e2
  rw [s1, s2]
  linear_combination e0 + (a0 * b0) * e3'

/-- The whole identity, as a polynomial in the trapdoors `α β γ δ t` (variables 0 to 4). -/
noncomputable def T (p : F[X]) : MvPolynomial (Fin 5) F := Polynomial.aeval (MvPolynomial.X 4) p

open MvPolynomial (X) in
/-- `γδ` times a combination of elements of the first group. -/
noncomputable def num1 (cα cβ cδ : F) (c0 Lu Lv Lw Mu Mv Mw : F[X]) : MvPolynomial (Fin 5) F :=
  X 2 * X 3 * (MvPolynomial.C cα * X 0 + MvPolynomial.C cβ * X 1 + MvPolynomial.C cδ * X 3 + T c0) +
    X 3 * (X 1 * T Lu + X 0 * T Lv + T Lw) + X 2 * (X 1 * T Mu + X 0 * T Mv + T Mw)

open MvPolynomial (X) in
/-- A combination of elements of the second group. -/
noncomputable def num2 (bβ bγ bδ : F) (b0 : F[X]) : MvPolynomial (Fin 5) F :=
  MvPolynomial.C bβ * X 1 + MvPolynomial.C bγ * X 2 + MvPolynomial.C bδ * X 3 + T b0

open MvPolynomial (X) in
theorem extract (aα aβ aδ : F) (a0 Lu Lv Lw Mu Mv Mw : F[X]) (bβ bγ bδ : F) (b0 : F[X])
    (cα cβ cδ : F) (c0 Ku Kv Kw Nu Nv Nw Su Sv Sw : F[X])
    (h : num1 aα aβ aδ a0 Lu Lv Lw Mu Mv Mw * num2 bβ bγ bδ b0 -
      X 2 * X 3 * (X 0 * X 1 + (X 1 * T Su + X 0 * T Sv + T Sw)) -
      X 3 * num1 cα cβ cδ c0 Ku Kv Kw Nu Nv Nw = 0) :
    (Su + Nu) * (Sv + Nv) = Sw + Nw := by
  -- substitute α = z, β = z², γ = y, δ = y⁴
  let Y : F[X][X][X] := Polynomial.X
  let Z : F[X][X][X] := Polynomial.C Polynomial.X
  let f : MvPolynomial (Fin 5) F →ₐ[F] F[X][X][X] :=
    MvPolynomial.aeval ![Z, Z ^ 2, Y, Y ^ 4, Polynomial.C (Polynomial.C Polynomial.X)]
  have fT : ∀ p : F[X], f (T p) = Polynomial.C (Polynomial.C p) := by
    intro p
    unfold T
    rw [← Polynomial.aeval_algHom_apply]
    simp only [f, MvPolynomial.aeval_X, Matrix.cons_val]
    induction p using Polynomial.induction_on' with
    | add p q hp hq => simp only [map_add, hp, hq]
    | monomial n a =>
      rw [Polynomial.aeval_monomial, ← Polynomial.C_mul_X_pow_eq_monomial]
      simp only [map_mul, map_pow]
      rfl
  have fC : ∀ a : F, f (MvPolynomial.C a) = Polynomial.C (Polynomial.C (Polynomial.C a)) := by
    intro a
    simp only [f, MvPolynomial.aeval_C]
    rfl
  have f0 : f (X 0) = Z := by simp [f]
  have f1 : f (X 1) = Z ^ 2 := by simp [f]
  have f2 : f (X 2) = Y := by simp [f]
  have f3 : f (X 3) = Y ^ 4 := by simp [f]
  have hf := congrArg f h
  simp only [num1, num2, map_sub, map_add, map_mul, fT, fC, f0, f1, f2, f3, map_zero] at hf
  have key : ∀ q1 q2 q4 q5 q6 q8 q9 q10 q13 : F[X][X],
      (Polynomial.C q1 * Polynomial.X + Polynomial.C q2 * Polynomial.X ^ 2 +
        Polynomial.C q4 * Polynomial.X ^ 4 + Polynomial.C q5 * Polynomial.X ^ 5 +
        Polynomial.C q6 * Polynomial.X ^ 6 + Polynomial.C q8 * Polynomial.X ^ 8 +
        Polynomial.C q9 * Polynomial.X ^ 9 + Polynomial.C q10 * Polynomial.X ^ 10 +
        Polynomial.C q13 * Polynomial.X ^ 13 : F[X][X][X]) = 0 →
      q1 = 0 ∧ q4 = 0 ∧ q5 = 0 := by
    intro q1 q2 q4 q5 q6 q8 q9 q10 q13 h
    have hk := fun k => congrArg (fun p : F[X][X][X] => p.coeff k) h
    refine ⟨?_, ?_, ?_⟩
    · simpa [coeff_X, coeff_C, coeff_X_pow] using hk 1
    · simpa [coeff_X, coeff_C, coeff_X_pow] using hk 4
    · simpa [coeff_X, coeff_C, coeff_X_pow] using hk 5
  let z : F[X][X] := Polynomial.X
  let c : F[X] → F[X][X] := fun p => Polynomial.C p
  let k : F → F[X][X] := fun a => Polynomial.C (Polynomial.C a)
  let a : F[X][X] := k aα * z + k aβ * z ^ 2 + c a0
  let b : F[X][X] := k bβ * z ^ 2 + c b0
  let LA : F[X][X] := c Lu * z ^ 2 + c Lv * z + c Lw
  let MA : F[X][X] := c Mu * z ^ 2 + c Mv * z + c Mw
  let S : F[X][X] := z ^ 3 + (c Su * z ^ 2 + c Sv * z + c Sw)
  let N : F[X][X] := c Nu * z ^ 2 + c Nv * z + c Nw
  let K : F[X][X] := c Ku * z ^ 2 + c Kv * z + c Kw
  let cc : F[X][X] := k cα * z + k cβ * z ^ 2 + c c0
  obtain ⟨q1, q4, q5⟩ := key (MA * b) (MA * k bγ) (LA * b)
    (a * b + k bγ * LA + k bδ * MA - S - N) (a * k bγ) (LA * k bδ - K)
    (k aδ * b + a * k bδ - cc) (k aδ * k bγ) (k aδ * k bδ - k cδ) (by
      simp only [a, b, LA, MA, S, N, K, cc, k, c, z, map_add, map_sub, map_mul, map_pow]
      simp only [Y, Z] at hf
      rw [← hf]
      ring)
  refine extract_inner aα aβ a0 bβ bγ bδ b0 Lu Lv Lw Mu Mv Mw Su Sv Sw Nu Nv Nw ?_ q4 q1
  have := q5
  simp only [a, b, LA, MA, S, N, k, c, z] at this
  linear_combination this

/-! ### Degrees -/

theorem totalDegree_T {p : F[X]} {d : Nat} (h : p.natDegree ≤ d) : (T p).totalDegree ≤ d := by
  unfold T
  rw [Polynomial.aeval_eq_sum_range]
  refine MvPolynomial.totalDegree_finsetSum_le fun i hi => ?_
  have hi : i ≤ p.natDegree := by simpa [Nat.lt_succ_iff] using hi
  refine (MvPolynomial.totalDegree_smul_le _ _).trans ?_
  refine (MvPolynomial.totalDegree_pow _ _).trans ?_
  rw [MvPolynomial.totalDegree_X]
  omega

section
open MvPolynomial

theorem td_add {p q : MvPolynomial (Fin 5) F} {d : Nat} (hp : p.totalDegree ≤ d)
    (hq : q.totalDegree ≤ d) : (p + q).totalDegree ≤ d :=
  (totalDegree_add _ _).trans (max_le hp hq)

theorem td_sub {p q : MvPolynomial (Fin 5) F} {d : Nat} (hp : p.totalDegree ≤ d)
    (hq : q.totalDegree ≤ d) : (p - q).totalDegree ≤ d :=
  (totalDegree_sub _ _).trans (max_le hp hq)

theorem td_mul {p q : MvPolynomial (Fin 5) F} {a b d : Nat} (hp : p.totalDegree ≤ a)
    (hq : q.totalDegree ≤ b) (h : a + b ≤ d) : (p * q).totalDegree ≤ d :=
  (totalDegree_mul _ _).trans (by omega)

theorem td_X (i : Fin 5) : (X i : MvPolynomial (Fin 5) F).totalDegree ≤ 1 := by
  rw [totalDegree_X]

theorem td_C (a : F) : (C a : MvPolynomial (Fin 5) F).totalDegree ≤ 0 := by simp

theorem td_num1 {n : Nat} (hn : 0 < n) (cα cβ cδ : F) {c0 Lu Lv Lw Mu Mv Mw : Polynomial F}
    (h0 : c0.natDegree ≤ n - 1) (h1 : Lu.natDegree ≤ n - 1) (h2 : Lv.natDegree ≤ n - 1)
    (h3 : Lw.natDegree ≤ n - 1) (h4 : Mu.natDegree ≤ n - 1) (h5 : Mv.natDegree ≤ n - 1)
    (h6 : Mw.natDegree ≤ 2 * n) : (num1 cα cβ cδ c0 Lu Lv Lw Mu Mv Mw).totalDegree ≤ 2 * n + 1 := by
  unfold num1
  refine td_add (td_add ?_ ?_) ?_
  · refine td_mul (b := 2 * n - 1) (td_mul (td_X _) (td_X _) le_rfl) (td_add (td_add (td_add ?_ ?_) ?_) ?_) (by omega)
    · exact td_mul (td_C _) (td_X _) (by omega)
    · exact td_mul (td_C _) (td_X _) (by omega)
    · exact td_mul (td_C _) (td_X _) (by omega)
    · exact (totalDegree_T h0).trans (by omega)
  · refine td_mul (b := 2 * n) (td_X _) (td_add (td_add ?_ ?_) ?_) (by omega)
    · exact td_mul (td_X _) (totalDegree_T h1) (by omega)
    · exact td_mul (td_X _) (totalDegree_T h2) (by omega)
    · exact (totalDegree_T h3).trans (by omega)
  · refine td_mul (b := 2 * n) (td_X _) (td_add (td_add ?_ ?_) ?_) (by omega)
    · exact td_mul (td_X _) (totalDegree_T h4) (by omega)
    · exact td_mul (td_X _) (totalDegree_T h5) (by omega)
    · exact (totalDegree_T h6).trans (by omega)

theorem td_num2 {n : Nat} (hn : 0 < n) (bβ bγ bδ : F) {b0 : Polynomial F}
    (h0 : b0.natDegree ≤ n - 1) : (num2 bβ bγ bδ b0).totalDegree ≤ n := by
  unfold num2
  refine td_add (td_add (td_add ?_ ?_) ?_) ?_
  · exact td_mul (td_C _) (td_X _) (by omega)
  · exact td_mul (td_C _) (td_X _) (by omega)
  · exact td_mul (td_C _) (td_X _) (by omega)
  · exact (totalDegree_T h0).trans (by omega)

theorem td_all {n : Nat} (hn : 0 < n) {P Q R : MvPolynomial (Fin 5) F} {Su Sv Sw : Polynomial F}
    (hP : P.totalDegree ≤ 2 * n + 1) (hQ : Q.totalDegree ≤ n) (hR : R.totalDegree ≤ 2 * n + 1)
    (h1 : Su.natDegree ≤ n - 1) (h2 : Sv.natDegree ≤ n - 1) (h3 : Sw.natDegree ≤ n - 1) :
    (P * Q - X 2 * X 3 * (X 0 * X 1 + (X 1 * T Su + X 0 * T Sv + T Sw)) - X 3 * R).totalDegree ≤
      3 * n + 1 := by
  refine td_sub (td_sub (td_mul hP hQ (by omega)) ?_) (td_mul (td_X _) hR (by omega))
  refine td_mul (a := 2) (b := n + 1) (td_mul (td_X _) (td_X _) le_rfl)
    (td_add ?_ (td_add (td_add ?_ ?_) ?_)) (by omega)
  · exact td_mul (td_X _) (td_X _) (by omega)
  · exact td_mul (td_X _) (totalDegree_T h1) (by omega)
  · exact td_mul (td_X _) (totalDegree_T h2) (by omega)
  · exact (totalDegree_T h3).trans (by omega)

/-- The number of zeros of a nonzero polynomial in five variables. -/
theorem zeros_le [Fintype F] [DecidableEq F] {P : MvPolynomial (Fin 5) F} (hP : P ≠ 0) {d : Nat}
    (hd : P.totalDegree ≤ d) (S : Set (Fin 5 → F)) (hS : ∀ v ∈ S, eval v P = 0) :
    S.ncard ≤ d * Fintype.card F ^ 4 := by
  have h := schwartz_zippel_totalDegree hP (Finset.univ : Finset F)
  have hc : 0 < Fintype.card F := Fintype.card_pos
  have hsub : S ⊆ ((Finset.univ.filter fun v : Fin 5 → F => eval v P = 0 : Finset (Fin 5 → F)) :
      Set (Fin 5 → F)) := by
    intro v hv
    simpa using hS v hv
  have h1 := (Set.ncard_le_ncard hsub (Finset.finite_toSet _)).trans_eq (Set.ncard_coe_finset _)
  have h2 : (Fintype.piFinset fun _ : Fin 5 => (Finset.univ : Finset F)) = Finset.univ := by
    ext; simp
  rw [h2, Finset.card_univ] at h
  have hq : (0 : ℚ≥0) < (Fintype.card F : ℚ≥0) := by exact_mod_cast hc
  rw [div_le_div_iff₀ (by positivity) hq] at h
  have h3 : ((Finset.univ.filter fun v : Fin 5 → F => eval v P = 0).card) * Fintype.card F ≤
      P.totalDegree * Fintype.card F ^ 5 := by exact_mod_cast h
  have h4 : ((Finset.univ.filter fun v : Fin 5 → F => eval v P = 0).card) ≤
      P.totalDegree * Fintype.card F ^ 4 := by
    refine Nat.le_of_mul_le_mul_right (h3.trans_eq ?_) hc
    ring
  exact h1.trans (h4.trans (Nat.mul_le_mul_right _ hd))

end

/-! ### The polynomials of the variables -/

theorem dot_eq_sum' (l z : List F) :
    dot l z = ∑ i ∈ Finset.range l.length, l.getD i 0 * z.getD i 0 := by
  induction l generalizing z with
  | nil => simp
  | cons a l ih =>
    cases z with
    | nil => simp
    | cons b z =>
      rw [List.length_cons, Finset.sum_range_succ', dot_cons, ih z]
      simp only [List.getD_cons_succ, List.getD_cons_zero]
      rw [add_comm]

variable [DecidableEq F]

/-- The circuit with another assignment. -/
def withAssignment (cs : CS F) (z : Nat → F) : CS F :=
  { cs with
    inputs := (List.range cs.inputs.length).map z
    aux := (List.range cs.aux.length).map fun i => z (cs.inputs.length + i) }

theorem full_with (cs : CS F) (z : Nat → F) :
    full (withAssignment cs z) = (List.range (cs.inputs.length + cs.aux.length)).map z := by
  unfold full withAssignment
  rw [List.range_add, List.map_append, List.map_map]
  rfl

/-- The vector `l`, whose dot product with every assignment is a polynomial of degree below `n` in
`t`, has entries that are such polynomials. -/
theorem exists_polys {N n : Nat} (l : F → List F) (hl : ∀ t, (l t).length = N)
    (h : ∀ z : Nat → F, ∃ p : F[X], p.degree < n ∧ ∀ t, dot (l t) ((List.range N).map z) = p.eval t) :
    ∃ u : Nat → F[X], ∀ i, (u i).natDegree ≤ n - 1 ∧ ∀ t, (l t).getD i 0 = (u i).eval t := by
  refine ⟨fun i => if i < N then (h fun j => if j = i then 1 else 0).choose else 0, fun i => ?_⟩
  by_cases hi : i < N
  · simp only [if_pos hi]
    obtain ⟨h1, h2⟩ := (h fun j => if j = i then 1 else 0).choose_spec
    refine ⟨?_, fun t => ?_⟩
    · by_cases h0 : (h fun j => if j = i then 1 else 0).choose = 0
      · rw [h0]; simp
      · have := (Polynomial.natDegree_lt_iff_degree_lt h0).mpr h1
        omega
    · rw [← h2 t, dot_eq_sum', hl t, Finset.sum_eq_single i]
      · rw [List.getD_eq_getElem (List.map _ _) _ (by simpa using hi)]
        simp
      · intro j hj hne
        rw [List.getD_eq_getElem (List.map _ _) _ (by simpa using hj)]
        simp [hne]
      · intro hni
        exact absurd (Finset.mem_range.mpr hi) hni
  · simp only [if_neg hi]
    refine ⟨by simp, fun t => ?_⟩
    rw [List.getD_eq_default _ _ (by rw [hl t]; omega)]
    simp

/-- `Σ z_i · u_i`. -/
noncomputable def lin (u : Nat → F[X]) (N : Nat) (z : Nat → F) : F[X] :=
  ∑ i ∈ Finset.range N, C (z i) * u i

theorem lin_eval (u : Nat → F[X]) (N : Nat) (z : Nat → F) (t : F) :
    (lin u N z).eval t = ∑ i ∈ Finset.range N, (u i).eval t * z i := by
  simp [lin, Polynomial.eval_finsetSum, mul_comm]

theorem lin_add (u : Nat → F[X]) (N : Nat) (y z : Nat → F) :
    lin u N y + lin u N z = lin u N fun i => y i + z i := by
  simp [lin, ← Finset.sum_add_distrib, add_mul]

theorem lin_natDegree {u : Nat → F[X]} {n : Nat} (hu : ∀ i, (u i).natDegree ≤ n) (N : Nat)
    (z : Nat → F) : (lin u N z).natDegree ≤ n := by
  refine Polynomial.natDegree_sum_le_of_forall_le _ _ fun i _ => ?_
  exact (Polynomial.natDegree_C_mul_le _ _).trans (hu i)

theorem inRange_with (cs : CS F) (z : Nat → F) : inRange (withAssignment cs z) = inRange cs :=
  inRange_congr rfl (by simp [withAssignment]) (by simp [withAssignment])

theorem instanceMap_with (D : Domain F) (cs : CS F) (z : Nat → F) (t : F) :
    instanceMap D (withAssignment cs z) t = instanceMap D cs t :=
  instanceMap_congr (cs := withAssignment cs z) (cs' := cs) rfl (by simp [withAssignment]) (by simp [withAssignment]) t

/-- Polynomials with the same values on the whole field and degree below the order of a domain. -/
theorem eq_of_eval {D : Domain F} (h : D.Valid) {p q : F[X]} (hp : p.degree < D.size)
    (hq : q.degree < D.size) (he : ∀ t, p.eval t = q.eval t) : p = q := by
  refine Polynomial.eq_of_degrees_lt_of_eval_index_eq (v := fun i => D.ω ^ i)
    (Finset.range D.size) ?_ (by simpa using hp) (by simpa using hq) fun i _ => he _
  intro i hi j hj hij
  exact h.prim.pow_inj (by simpa using hi) (by simpa using hj) hij

/-- The polynomials of the variables of a circuit: their values are the key's values, and a quotient
exists only for satisfying assignments. -/
theorem variable_polys (D : Domain F) (h : D.Valid) (cs : CS F) (hr : inRange cs = true)
    (hn : cs.constraints.length + cs.inputs.length ≤ D.size) :
    ∃ u v w : Nat → F[X],
      (∀ i, (u i).natDegree ≤ D.size - 1 ∧ ∀ t, (instanceMap D cs t).a.getD i 0 = (u i).eval t) ∧
      (∀ i, (v i).natDegree ≤ D.size - 1 ∧ ∀ t, (instanceMap D cs t).b.getD i 0 = (v i).eval t) ∧
      (∀ i, (w i).natDegree ≤ D.size - 1 ∧ ∀ t, (instanceMap D cs t).c.getD i 0 = (w i).eval t) ∧
      (∀ t, (instanceMap D cs t).a.length = cs.inputs.length + cs.aux.length ∧
        (instanceMap D cs t).b.length = cs.inputs.length + cs.aux.length ∧
        (instanceMap D cs t).c.length = cs.inputs.length + cs.aux.length) ∧
      ∀ (z : Nat → F) (H : F[X]),
        lin u (cs.inputs.length + cs.aux.length) z * lin v (cs.inputs.length + cs.aux.length) z -
          lin w (cs.inputs.length + cs.aux.length) z = H * (X ^ D.size - 1) →
        (withAssignment cs z).Sat (withAssignment cs z).witness := by
  have hpos := h.pos
  have hnz : ∀ z, (withAssignment cs z).constraints.length + (withAssignment cs z).inputs.length ≤
      D.size := by
    intro z; simpa [withAssignment] using hn
  have ha := fun z t => instanceMap_a (D := D) (cs := withAssignment cs z)
    (by rw [inRange_with, hr]) (hnz z) t
  have hb := fun z t => instanceMap_b (D := D) (cs := withAssignment cs z)
    (by rw [inRange_with, hr]) (by have := hnz z; omega) t
  have hc := fun z t => instanceMap_c (D := D) (cs := withAssignment cs z)
    (by rw [inRange_with, hr]) (by have := hnz z; omega) t
  simp only [instanceMap_with, full_with] at ha hb hc
  have la : ∀ t, (instanceMap D cs t).a.length = cs.inputs.length + cs.aux.length := fun t => by
    simpa using (ha 0 t).1
  have lb : ∀ t, (instanceMap D cs t).b.length = cs.inputs.length + cs.aux.length := fun t => by
    simpa using (hb 0 t).1
  have lc : ∀ t, (instanceMap D cs t).c.length = cs.inputs.length + cs.aux.length := fun t => by
    simpa using (hc 0 t).1
  obtain ⟨u, hu⟩ := exists_polys (n := D.size) (fun t => (instanceMap D cs t).a) la fun z =>
    ⟨_, by simpa using polyOf_degree (D.ifft (evalsA D (withAssignment cs z))), fun t => (ha z t).2⟩
  obtain ⟨v, hv⟩ := exists_polys (n := D.size) (fun t => (instanceMap D cs t).b) lb fun z =>
    ⟨_, by simpa using polyOf_degree (D.ifft (evalsB D (withAssignment cs z))), fun t => (hb z t).2⟩
  obtain ⟨w, hw⟩ := exists_polys (n := D.size) (fun t => (instanceMap D cs t).c) lc fun z =>
    ⟨_, by simpa using polyOf_degree (D.ifft (evalsC D (withAssignment cs z))), fun t => (hc z t).2⟩
  refine ⟨u, v, w, hu, hv, hw, fun t => ⟨la t, lb t, lc t⟩, ?_⟩
  intro z H hH
  have deg : ∀ {u : Nat → F[X]}, (∀ i, (u i).natDegree ≤ D.size - 1) →
      (lin u (cs.inputs.length + cs.aux.length) z).degree < D.size := by
    intro u hu
    refine (Polynomial.degree_le_natDegree).trans_lt ?_
    have := lin_natDegree hu (cs.inputs.length + cs.aux.length) z
    exact_mod_cast (by omega : (lin u (cs.inputs.length + cs.aux.length) z).natDegree < D.size)
  have ev : ∀ {l : F → List F} {u : Nat → F[X]} (hl : ∀ t, (l t).length = cs.inputs.length + cs.aux.length)
      (hu : ∀ i, (u i).natDegree ≤ D.size - 1 ∧ ∀ t, (l t).getD i 0 = (u i).eval t) (t : F),
      dot (l t) ((List.range (cs.inputs.length + cs.aux.length)).map z) =
        (lin u (cs.inputs.length + cs.aux.length) z).eval t := by
    intro l u hl hu t
    rw [lin_eval, dot_eq_sum', hl t]
    refine Finset.sum_congr rfl fun i hi => ?_
    rw [(hu i).2 t, List.getD_eq_getElem (List.map _ _) _ (by simpa using hi)]
    simp
  have ea : lin u (cs.inputs.length + cs.aux.length) z =
      polyOf (D.ifft (evalsA D (withAssignment cs z))) :=
    eq_of_eval h (deg fun i => (hu i).1) (by simpa using polyOf_degree (D.ifft _)) fun t => by
      rw [← (ha z t).2, ev la hu t]
  have eb : lin v (cs.inputs.length + cs.aux.length) z =
      polyOf (D.ifft (evalsB D (withAssignment cs z))) :=
    eq_of_eval h (deg fun i => (hv i).1) (by simpa using polyOf_degree (D.ifft _)) fun t => by
      rw [← (hb z t).2, ev lb hv t]
  have ec : lin w (cs.inputs.length + cs.aux.length) z =
      polyOf (D.ifft (evalsC D (withAssignment cs z))) :=
    eq_of_eval h (deg fun i => (hw i).1) (by simpa using polyOf_degree (D.ifft _)) fun t => by
      rw [← (hc z t).2, ev lc hw t]
  rw [ea, eb, ec] at hH
  exact quotient_only h (by rw [inRange_with, hr]) (by have := hnz z; omega) hH

/-! ### The proof elements -/

theorem eval_T (v : Fin 5 → F) (p : F[X]) : MvPolynomial.eval v (T p) = p.eval (v 4) := by
  unfold T
  rw [Polynomial.aeval_eq_sum_range, Polynomial.eval_eq_sum_range]
  simp [MvPolynomial.smul_eval]

theorem dot_take (l z : List F) (k : Nat) (hk : k ≤ l.length) : dot (l.take k) z =
    ∑ i ∈ Finset.range l.length, l.getD i 0 * (if i < k then z.getD i 0 else 0) := by
  rw [dot_eq_sum', List.length_take, min_eq_left hk]
  obtain ⟨m, hm⟩ := Nat.exists_eq_add_of_le hk
  rw [hm, Finset.sum_range_add]
  have : ∑ x ∈ Finset.range m, l.getD (k + x) 0 * (if k + x < k then z.getD (k + x) 0 else 0) = 0 :=
    Finset.sum_eq_zero fun i _ => by simp
  rw [this, add_zero]
  refine Finset.sum_congr rfl fun i hi => ?_
  have hi : i < k := by simpa using hi
  rw [if_pos hi, List.getD_eq_getElem _ _ (by simp; omega), List.getD_eq_getElem l _ (by omega)]
  simp

theorem dot_drop (l z : List F) (k : Nat) (hk : k ≤ l.length) : dot (l.drop k) z =
    ∑ i ∈ Finset.range l.length, l.getD i 0 * (if i < k then 0 else z.getD (i - k) 0) := by
  rw [dot_eq_sum', List.length_drop]
  obtain ⟨m, hm⟩ := Nat.exists_eq_add_of_le hk
  rw [hm, Finset.sum_range_add]
  have : ∑ x ∈ Finset.range k, l.getD x 0 * (if x < k then 0 else z.getD (x - k) 0) = 0 :=
    Finset.sum_eq_zero fun i hi => by simp [Finset.mem_range.mp hi]
  rw [this, zero_add, Nat.add_sub_cancel_left]
  refine Finset.sum_congr rfl fun i hi => ?_
  have hi : i < m := by simpa using hi
  rw [if_neg (by omega), List.getD_eq_getElem _ _ (by simp; omega),
    List.getD_eq_getElem l _ (by omega)]
  simp

theorem combine_getD (α β inv : F) (q : Qap F) {N : Nat} (ha : q.a.length = N) (hb : q.b.length = N)
    (hc : q.c.length = N) (i : Nat) : (combine α β inv q).length = N ∧ (combine α β inv q).getD i 0 =
      (β * q.a.getD i 0 + α * q.b.getD i 0 + q.c.getD i 0) * inv := by
  unfold combine
  refine ⟨by simp [ha, hb, hc], ?_⟩
  by_cases hi : i < N
  · rw [List.getD_eq_getElem _ _ (by simp [ha, hb, hc, hi]), List.getD_eq_getElem _ _ (by omega),
      List.getD_eq_getElem _ _ (by omega), List.getD_eq_getElem _ _ (by omega)]
    simp
  · rw [List.getD_eq_default _ _ (by simp [ha, hb, hc]; omega), List.getD_eq_default _ _ (by omega),
      List.getD_eq_default _ _ (by omega), List.getD_eq_default _ _ (by omega)]
    ring

theorem msm_h' {G1 : Type} [AddCommGroup G1] [Module F G1] (z δ' t : F) (g1 : G1) (h : List F)
    (n : Nat) : msm ((List.range n).map fun i => (z * δ' * t ^ i) • g1) h =
      (z * δ' * ∑ i ∈ Finset.range n, h.getD i 0 * t ^ i) • g1 := by
  have : ((List.range n).map fun i => (z * δ' * t ^ i) • g1) =
      ((List.range n).map fun i => z * δ' * t ^ i).map fun x => x • g1 := by
    simp [List.map_map, Function.comp_def]
  rw [this, msm_map, dot_eq_sum', List.length_map, List.length_range, Finset.mul_sum]
  congr 1
  refine Finset.sum_congr rfl fun i hi => ?_
  rw [List.getD_eq_getElem (List.map _ _) _ (by simpa using hi)]
  simp only [List.getElem_map, List.getElem_range]
  ring

/-- The quotient a prover uses. -/
noncomputable def hPoly (n : Nat) (h : List F) : F[X] :=
  ∑ i ∈ Finset.range (n - 1), C (h.getD i 0) * X ^ i

theorem hPoly_eval (n : Nat) (h : List F) (t : F) :
    (hPoly n h).eval t = ∑ i ∈ Finset.range (n - 1), h.getD i 0 * t ^ i := by
  simp [hPoly, Polynomial.eval_finsetSum]

theorem hPoly_degree (n : Nat) (h : List F) : (hPoly n h).natDegree ≤ n := by
  refine Polynomial.natDegree_sum_le_of_forall_le _ _ fun i hi => ?_
  have hi : i < n - 1 := by simpa using hi
  exact (Polynomial.natDegree_C_mul_X_pow_le _ _).trans (by omega)

section
variable {G1 G2 GT : Type} [AddCommGroup G1] [AddCommGroup G2] [AddCommGroup GT]
  [Module F G1] [Module F G2] [Module F GT]

/-- The first variables' coefficients. -/
def onInputs (k : Nat) (l : List F) (i : Nat) : F := if i < k then l.getD i 0 else 0

/-- The other variables' coefficients. -/
def onAux (k : Nat) (l : List F) (i : Nat) : F := if i < k then 0 else l.getD (i - k) 0

/-- The numerator of a combination of elements of the first group. -/
noncomputable def Coeffs1.num (K : Coeffs1 F) (u v w : Nat → F[X]) (N k n : Nat) :
    MvPolynomial (Fin 5) F :=
  num1 K.alpha K.beta K.delta
    (C K.gen + lin u N (fun i => K.a.getD i 0) + lin v N (fun i => K.b.getD i 0))
    (lin u N (onInputs k K.abc)) (lin v N (onInputs k K.abc)) (lin w N (onInputs k K.abc))
    (lin u N (onAux k K.l)) (lin v N (onAux k K.l))
    (lin w N (onAux k K.l) + hPoly n K.h * (X ^ n - 1))

/-- The polynomial of a combination of elements of the second group. -/
noncomputable def Coeffs2.num (K : Coeffs2 F) (v : Nat → F[X]) (N : Nat) : MvPolynomial (Fin 5) F :=
  num2 K.beta K.gamma K.delta (C K.gen + lin v N (fun i => K.b.getD i 0))

/-- What key generation returns. -/
theorem keygen_eq {mkDomain : Nat → Option (Domain F)} {cs : CS F} {α β γ δ t : F} {g1 : G1} {g2 : G2}
    {pk : Parameters G1 G2} (h : generateParameters mkDomain cs α β γ δ t g1 g2 = .ok pk) {D : Domain F}
    (hD : mkDomain (cs.constraints.length + (cs.inputs.length - 1) + 1) = some D) :
    inRange cs = true ∧ γ ≠ 0 ∧ δ ≠ 0 ∧ pk = {
        vk := {
          alpha_g1 := α • g1
          beta_g2 := β • g2
          gamma_g2 := γ • g2
          delta_g2 := δ • g2
          gamma_abc_g1 := ((combine α β γ⁻¹ (instanceMap D cs t)).take cs.inputs.length).map
            fun x => x • g1 }
        beta_g1 := β • g1
        delta_g1 := δ • g1
        a_query := (instanceMap D cs t).a.map fun x => x • g1
        b_g1_query := (instanceMap D cs t).b.map fun x => x • g1
        b_g2_query := (instanceMap D cs t).b.map fun x => x • g2
        h_query := (List.range (D.size - 1)).map fun i => (D.vanishing t * δ⁻¹ * t ^ i) • g1
        l_query := ((combine α β δ⁻¹ (instanceMap D cs t)).map fun x => x • g1).drop cs.inputs.length } := by
  unfold generateParameters at h
  rw [hD] at h
  simp only at h
  by_cases h1 : inRange cs = false
  · rw [if_pos h1] at h; cases h
  · rw [if_neg h1] at h
    by_cases h2 : γ = 0
    · rw [if_pos h2] at h; cases h
    · rw [if_neg h2] at h
      by_cases h3 : δ = 0
      · rw [if_pos h3] at h; cases h
      · rw [if_neg h3] at h
        refine ⟨by simpa using h1, h2, h3, ?_⟩
        exact (Except.ok.inj h).symm

variable {D : Domain F} {cs : CS F} {u v w : Nat → F[X]}

theorem dot_lin {l : List F} {u : Nat → F[X]} {N : Nat} {t : F} (hl : l.length = N)
    (hu : ∀ i, l.getD i 0 = (u i).eval t) (z : List F) :
    dot l z = (lin u N fun i => z.getD i 0).eval t := by
  rw [lin_eval, dot_eq_sum', hl]
  exact Finset.sum_congr rfl fun i _ => by rw [hu i]

theorem dot_combine_lin (α β inv t : F) {q : Qap F} {N k : Nat} (ha : q.a.length = N)
    (hb : q.b.length = N) (hc : q.c.length = N) (hu : ∀ i, q.a.getD i 0 = (u i).eval t)
    (hv : ∀ i, q.b.getD i 0 = (v i).eval t) (hw : ∀ i, q.c.getD i 0 = (w i).eval t) (hk : k ≤ N)
    (z : List F) :
    dot ((combine α β inv q).take k) z = (β * (lin u N (onInputs k z)).eval t +
      α * (lin v N (onInputs k z)).eval t + (lin w N (onInputs k z)).eval t) * inv ∧
    dot ((combine α β inv q).drop k) z = (β * (lin u N (onAux k z)).eval t +
      α * (lin v N (onAux k z)).eval t + (lin w N (onAux k z)).eval t) * inv := by
  have hlen := (combine_getD α β inv q ha hb hc 0).1
  rw [dot_take _ _ _ (by omega), dot_drop _ _ _ (by omega), hlen]
  simp only [lin_eval, Finset.mul_sum, ← Finset.sum_add_distrib, Finset.sum_mul]
  constructor
  · refine Finset.sum_congr rfl fun i _ => ?_
    rw [(combine_getD α β inv q ha hb hc i).2, hu, hv, hw, onInputs]
    ring
  · refine Finset.sum_congr rfl fun i _ => ?_
    rw [(combine_getD α β inv q ha hb hc i).2, hu, hv, hw, onAux]
    ring

/-- The elements a prover sends, and the elements the verifier uses, as multiples of the
generators. -/
theorem elements {mkDomain : Nat → Option (Domain F)} {cs : CS F} {g1 : G1} {g2 : G2}
    {pk : Parameters G1 G2} {x : Fin 5 → F}
    (h : generateParameters mkDomain cs (x 0) (x 1) (x 2) (x 3) (x 4) g1 g2 = .ok pk) {D : Domain F}
    (hD : mkDomain (cs.constraints.length + (cs.inputs.length - 1) + 1) = some D)
    (hu : ∀ i, (instanceMap D cs (x 4)).a.getD i 0 = (u i).eval (x 4))
    (hv : ∀ i, (instanceMap D cs (x 4)).b.getD i 0 = (v i).eval (x 4))
    (hw : ∀ i, (instanceMap D cs (x 4)).c.getD i 0 = (w i).eval (x 4)) {N : Nat}
    (hN : N = cs.inputs.length + cs.aux.length)
    (hl : (instanceMap D cs (x 4)).a.length = N ∧ (instanceMap D cs (x 4)).b.length = N ∧
      (instanceMap D cs (x 4)).c.length = N) :
    (∀ K : Coeffs1 F, K.apply pk g1 = ((x 2 * x 3)⁻¹ *
      MvPolynomial.eval x (K.num u v w N cs.inputs.length D.size)) • g1) ∧
    (∀ K : Coeffs2 F, K.apply pk g2 = (MvPolynomial.eval x (K.num v N)) • g2) ∧
    (∀ z : List F, msm pk.vk.gamma_abc_g1 z = ((x 2)⁻¹ * (x 1 * (lin u N (onInputs cs.inputs.length z)).eval (x 4) +
      x 0 * (lin v N (onInputs cs.inputs.length z)).eval (x 4) +
      (lin w N (onInputs cs.inputs.length z)).eval (x 4))) • g1) ∧
    pk.vk.gamma_abc_g1.length = cs.inputs.length := by
  obtain ⟨-, hγ, hδ, rfl⟩ := keygen_eq h hD
  obtain ⟨la, lb, lc⟩ := hl
  have hk : cs.inputs.length ≤ N := by omega
  have hz : ∀ t, D.vanishing t = (X ^ D.size - 1 : F[X]).eval t := fun t =>
    (Domain.eval_vanishing t).symm
  refine ⟨fun K => ?_, fun K => ?_, fun z => ?_, ?_⟩
  · unfold Coeffs1.apply Coeffs1.num num1
    simp only
    rw [← List.map_drop, msm_map, msm_map, msm_map, msm_map, msm_h', dot_lin la hu, dot_lin lb hv,
      (dot_combine_lin (x 0) (x 1) (x 2)⁻¹ (x 4) la lb lc hu hv hw hk K.abc).1,
      (dot_combine_lin (x 0) (x 1) (x 3)⁻¹ (x 4) la lb lc hu hv hw hk K.l).2,
      ← hPoly_eval, hz]
    simp only [map_add, map_mul, MvPolynomial.eval_X, MvPolynomial.eval_C, eval_T,
      Polynomial.eval_add, Polynomial.eval_mul, Polynomial.eval_C]
    match_scalars
    field_simp
    ring
  · unfold Coeffs2.apply Coeffs2.num num2
    simp only
    rw [msm_map, dot_lin lb hv]
    simp only [map_add, map_mul, MvPolynomial.eval_X, MvPolynomial.eval_C, eval_T,
      Polynomial.eval_add, Polynomial.eval_mul, Polynomial.eval_C]
    module
  · simp only
    rw [msm_map, (dot_combine_lin (x 0) (x 1) (x 2)⁻¹ (x 4) la lb lc hu hv hw hk z).1]
    congr 1
    ring
  · have := (combine_getD (x 0) (x 1) (x 2)⁻¹ (instanceMap D cs (x 4)) la lb lc 0).1
    simp [this, hk]

/-- The polynomial that vanishes at every trapdoor for which the proof is accepted. -/
noncomputable def identity (A C' : Coeffs1 F) (B : Coeffs2 F) (u v w : Nat → F[X]) (N k n : Nat)
    (xs : List F) : MvPolynomial (Fin 5) F :=
  A.num u v w N k n * B.num v N -
    MvPolynomial.X 2 * MvPolynomial.X 3 * (MvPolynomial.X 0 * MvPolynomial.X 1 +
      (MvPolynomial.X 1 * T (lin u N (onInputs k (1 :: xs))) +
        MvPolynomial.X 0 * T (lin v N (onInputs k (1 :: xs))) + T (lin w N (onInputs k (1 :: xs))))) -
    MvPolynomial.X 3 * C'.num u v w N k n

theorem identity_degree {n : Nat} (hn : 0 < n) (hu : ∀ i, (u i).natDegree ≤ n - 1)
    (hv : ∀ i, (v i).natDegree ≤ n - 1) (hw : ∀ i, (w i).natDegree ≤ n - 1) (A C' : Coeffs1 F)
    (B : Coeffs2 F) (N k : Nat) (xs : List F) :
    (identity A C' B u v w N k n xs).totalDegree ≤ 3 * n + 1 := by
  have hc : ∀ a : F, (C a : F[X]).natDegree ≤ n - 1 := fun a => by simp
  have ad : ∀ {p q : F[X]} {d : Nat}, p.natDegree ≤ d → q.natDegree ≤ d → (p + q).natDegree ≤ d :=
    fun h1 h2 => Polynomial.natDegree_add_le_of_degree_le h1 h2
  have h1 : ∀ K : Coeffs1 F, (K.num u v w N k n).totalDegree ≤ 2 * n + 1 := by
    intro K
    refine td_num1 hn _ _ _ (ad (ad (hc _) (lin_natDegree hu _ _)) (lin_natDegree hv _ _))
      (lin_natDegree hu _ _) (lin_natDegree hv _ _) (lin_natDegree hw _ _) (lin_natDegree hu _ _)
      (lin_natDegree hv _ _) (ad ((lin_natDegree hw _ _).trans (by omega)) ?_)
    refine Polynomial.natDegree_mul_le.trans ?_
    have h1 := hPoly_degree n K.h
    have h2 : (X ^ n - 1 : F[X]).natDegree = n := by rw [← C_1, natDegree_X_pow_sub_C]
    omega
  exact td_all hn (h1 A) (td_num2 hn _ _ _ (ad (hc _) (lin_natDegree hv _ _))) (h1 C')
    (lin_natDegree hu _ _) (lin_natDegree hv _ _) (lin_natDegree hw _ _)

end

end Zkp.Groth16
