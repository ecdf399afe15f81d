/- Soundness of Marlin's algebraic protocol, when the messages are fixed in the right order. -/
import Verif.Proof.MarlinForge
import Mathlib.Algebra.Polynomial.Derivative

set_option linter.unusedSectionVars false
set_option linter.unusedSimpArgs false

namespace Zkp.Marlin

open Polynomial

variable {F : Type} [Field F] [DecidableEq F]

/-! ### Polynomials on a domain -/

theorem sum_X_mul {D : Domain F} (h : D.Valid) (h2 : 2 ≤ D.size) {g : F[X]} (hg : g.natDegree ≤ D.size - 2) :
    ∑ k ∈ Finset.range D.size, D.ω ^ k * g.eval (D.ω ^ k) = 0 := by
  have : ∀ k, D.ω ^ k * g.eval (D.ω ^ k)
      = ∑ m ∈ Finset.range (D.size - 1), g.coeff m * (D.ω ^ (m + 1) * (D.ω⁻¹) ^ 0) ^ k := by
    intro k
    rw [eval_eq_sum_range' (n := D.size - 1) (by omega), Finset.mul_sum]
    refine Finset.sum_congr rfl fun m _ => ?_
    rw [pow_zero, mul_one, ← pow_mul, ← pow_mul, pow_mul', add_mul, one_mul, pow_add]
    ring
  simp only [this]
  rw [Finset.sum_comm]
  refine Finset.sum_eq_zero fun m hm => ?_
  have hm := Finset.mem_range.mp hm
  rw [← Finset.mul_sum, h.orth (by omega) (by omega), if_neg (by omega), mul_zero]

/-- `v_H / (X - r)`. -/
noncomputable def cofactor (H : Domain F) (r : F) : F[X] := (X ^ H.size - 1) /ₘ (X - C r)

theorem cofactor_mul {H : Domain F} {r : F} (hr : H.vanishing r = 0) :
    (X - C r) * cofactor H r = X ^ H.size - 1 := by
  unfold cofactor
  rw [mul_divByMonic_eq_iff_isRoot]
  unfold IsRoot
  rw [Domain.eval_vanishing, hr]

theorem cofactor_outside {H : Domain F} {r x : F} (hr : H.vanishing r = 0) (hx : H.vanishing x ≠ 0) :
    (cofactor H r).eval x = H.vanishing x / (x - r) := by
  have h1 := congrArg (eval x) (cofactor_mul hr)
  rw [eval_mul, Domain.eval_vanishing] at h1
  simp only [eval_sub, eval_X, eval_C] at h1
  have : x - r ≠ 0 := by
    intro h
    rw [h, zero_mul] at h1
    exact hx h1.symm
  rw [← h1]
  field_simp

theorem cofactor_other {H : Domain F} {r x : F} (hr : H.vanishing r = 0) (hx : H.vanishing x = 0)
    (hne : x ≠ r) : (cofactor H r).eval x = 0 := by
  have h1 := congrArg (eval x) (cofactor_mul hr)
  rw [eval_mul, Domain.eval_vanishing, hx] at h1
  simp only [eval_sub, eval_X, eval_C] at h1
  rcases mul_eq_zero.mp h1 with h | h
  · exact absurd (sub_eq_zero.mp h) hne
  · exact h

theorem cofactor_self {H : Domain F} {r : F} (hr : H.vanishing r = 0) :
    (cofactor H r).eval r = H.size * r ^ (H.size - 1) := by
  have h1 := congrArg (fun p => eval r (derivative p)) (cofactor_mul hr)
  simp only [derivative_mul, derivative_sub, derivative_X, derivative_C, sub_zero, one_mul, eval_add, eval_mul,
    eval_sub, eval_X, eval_C, sub_self, zero_mul, add_zero, derivative_X_pow, derivative_one, eval_pow, map_natCast, eval_natCast] at h1
  exact h1

theorem cofactor_natDegree {H : Domain F} (h : H.Valid) (r : F) : (cofactor H r).natDegree ≤ H.size - 1 := by
  unfold cofactor
  rw [natDegree_divByMonic _ (monic_X_sub_C r), natDegree_X_sub_C,
    natDegree_eq_of_degree_eq_some (Domain.degree_vanishing h)]

theorem diagonal_eq {H : Domain F} (h : H.Valid) {j : Nat} (hj : j < H.size) :
    diagonal H j = H.size * (H.ω ^ j) ^ (H.size - 1) := by
  unfold diagonal
  congr 1
  rw [← pow_mul]
  split
  · rename_i h0; rw [h0, Nat.zero_mul]
  · rename_i h0
    have hω := h.ω_ne
    have e1 : H.ω ^ (H.size - j) * H.ω ^ j = 1 := by
      rw [← pow_add, Nat.sub_add_cancel hj.le, h.ω_pow]
    have e2 : H.ω ^ (j * (H.size - 1)) * H.ω ^ j = 1 := by
      rw [← pow_add, Nat.mul_sub_one]
      have : j ≤ j * H.size := Nat.le_mul_of_pos_right _ h.pos
      rw [Nat.sub_add_cancel this, Nat.mul_comm, pow_mul, h.ω_pow, one_pow]
    exact mul_right_cancel₀ (pow_ne_zero j hω) (e1.trans e2.symm)

theorem diagonal_ne {H : Domain F} (h : H.Valid) (j : Nat) : diagonal H j ≠ 0 :=
  mul_ne_zero h.size_ne (pow_ne_zero _ h.ω_ne)

/-- Summing a cofactor against a function on the domain picks out one value. -/
theorem sum_cofactor {H : Domain F} (h : H.Valid) {q : Nat} (hq : q < H.size) (f : Nat → F) :
    ∑ k ∈ Finset.range H.size, (cofactor H (H.ω ^ q)).eval (H.ω ^ k) * f k = diagonal H q * f q := by
  rw [Finset.sum_eq_single q]
  · rw [cofactor_self (h.vanishing_element q), diagonal_eq h hq]
  · intro k hk hkq
    have hk := Finset.mem_range.mp hk
    rw [cofactor_other (h.vanishing_element q) (h.vanishing_element k) (fun he => hkq (h.inj hk hq he)), zero_mul]
  · intro hn; exact absurd (Finset.mem_range.mpr hq) hn

/-- `(v_H(α) - v_H(Y)) / (α - Y)` as a polynomial in `Y`. -/
noncomputable def bivariatePoly (H : Domain F) (α : F) : F[X] :=
  ∑ i ∈ Finset.range H.size, C (α ^ i) * X ^ (H.size - 1 - i)

theorem bivariatePoly_eval (H : Domain F) (α y : F) : (bivariatePoly H α).eval y = bivariateEval H α y := by
  have e : (bivariatePoly H α).eval y = ∑ i ∈ Finset.range H.size, α ^ i * y ^ (H.size - 1 - i) := by
    unfold bivariatePoly
    rw [eval_finset_sum]
    simp
  rw [e]
  unfold bivariateEval
  split
  · rename_i hne
    have h1 := geom_sum₂_mul α y H.size
    have : α - y ≠ 0 := sub_ne_zero.mpr hne
    rw [eq_div_iff this, h1]
    unfold Domain.vanishing
    ring
  · rename_i hne
    have hne : α = y := by by_contra h; exact hne h
    subst hne
    rw [Finset.sum_congr rfl (g := fun _ => α ^ (H.size - 1))]
    · simp
    · intro i hi
      have := Finset.mem_range.mp hi
      rw [← pow_add]
      congr 1
      omega

theorem bivariatePoly_natDegree (H : Domain F) (α : F) : (bivariatePoly H α).natDegree ≤ H.size - 1 := by
  unfold bivariatePoly
  refine natDegree_sum_le_of_forall_le _ _ fun i _ => ?_
  refine (natDegree_C_mul_X_pow_le _ _).trans (Nat.sub_le _ _)

theorem bivariate_domain {H : Domain F} (h : H.Valid) {α : F} (hα : H.vanishing α ≠ 0) (j : Nat) :
    bivariateEval H α (H.ω ^ j) = (cofactor H (H.ω ^ j)).eval α := by
  unfold bivariateEval
  have hne : α ≠ H.ω ^ j := sub_ne_zero.mp (vanishing_ne h hα j)
  rw [if_pos hne, h.vanishing_element j, sub_zero, cofactor_outside (h.vanishing_element j) hα]

theorem eq_zero_of_many {S : Finset F} {p : F[X]} (hp : p.natDegree < S.card) (h : ∀ x ∈ S, p.eval x = 0) :
    p = 0 := Polynomial.eq_zero_of_natDegree_lt_card_of_eval_eq_zero' p S h hp

/-! ### Sums over the entries of a matrix -/

theorem entries_sum {H D : Domain F} (z : Nat → F) (φ ψ : F → F)
    (hz : ∀ j q, reindexBySubdomain H.size D.size j = .ok q → q < H.size →
      (diagonal H q)⁻¹ * ψ (H.ω ^ q) = z j) :
    ∀ {m : Matrix F} {i : Nat} {l : List (F × F × F)}, composeEntries H D i m = .ok l →
    (l.map fun t => t.2.2 * φ t.2.1 * ψ t.1).sum
      = ∑ k ∈ Finset.range m.length, φ (H.ω ^ (i + k)) * rowVal z (m.getD k []) := by
  intro m
  induction m with
  | nil => intro i l h; injection h with h; subst h; simp
  | cons r m ih =>
    intro i l h
    unfold composeEntries at h
    obtain ⟨x, h1, h2⟩ := Kzg.bind_ok h
    obtain ⟨y, h3, h4⟩ := Kzg.bind_ok h2
    injection h4 with h4
    subst h4
    rw [List.map_append, List.sum_append, ih h3, List.length_cons, Finset.sum_range_succ', add_comm]
    congr 1
    · refine Finset.sum_congr rfl fun k _ => ?_
      rw [List.getD_cons_succ, show i + 1 + k = i + (k + 1) by ring]
    · rw [List.getD_cons_zero, Nat.add_zero]
      rw [Kzg.mapM_ok] at h1
      clear ih h3 h2 h
      induction h1 with
      | nil => simp [rowVal]
      | @cons e t r x he _ ih2 =>
        rw [List.map_cons, List.sum_cons, ih2]
        unfold composeEntry at he
        obtain ⟨q, hq, h5⟩ := Kzg.bind_ok he
        split at h5
        · rename_i hlt
          injection h5 with h5
          subst h5
          have := hz _ _ hq hlt.1
          unfold rowVal
          rw [List.map_cons, List.sum_cons, ← this]
          ring
        · cases h5

theorem list_sum_range {α : Type} (f : α → F) (d : α) : ∀ l : List α,
    (l.map f).sum = ∑ k ∈ Finset.range l.length, f (l.getD k d) := by
  intro l
  induction l with
  | nil => simp
  | cons a l ih =>
    rw [List.map_cons, List.sum_cons, ih, List.length_cons, Finset.sum_range_succ', add_comm]
    simp

theorem compose_sum {D H K : Domain F} (hK : K.Valid) {m : Matrix F} {p : MatrixPolys F}
    (h : compose D H K m = .ok p) (φ ψ : F → F) (z : Nat → F)
    (hz : ∀ j q, reindexBySubdomain H.size D.size j = .ok q → q < H.size →
      (diagonal H q)⁻¹ * ψ (H.ω ^ q) = z j) :
    ∑ k ∈ Finset.range K.size, p.val.eval (K.ω ^ k) * φ (p.col.eval (K.ω ^ k)) * ψ (p.row.eval (K.ω ^ k))
      = ∑ k ∈ Finset.range m.length, φ (H.ω ^ k) * rowVal z (m.getD k []) := by
  unfold compose at h
  obtain ⟨l0, h1, h2⟩ := Kzg.bind_ok h
  obtain ⟨l, h3, h4⟩ := Kzg.bind_ok h2
  injection h4 with h4
  subst h4
  unfold padEntries at h3
  split at h3
  · cases h3
  injection h3 with h3
  have hl : l.length = K.size := by rw [← h3]; simp; omega
  have e1 := entries_sum z φ ψ hz h1
  simp only [Nat.zero_add] at e1
  rw [← e1]
  have e2 : (l0.map fun t => t.2.2 * φ t.2.1 * ψ t.1).sum = (l.map fun t => t.2.2 * φ t.2.1 * ψ t.1).sum := by
    rw [← h3, List.map_append, List.sum_append, List.map_replicate]
    simp
  rw [e2, list_sum_range _ (0, 0, 0), hl]
  refine Finset.sum_congr rfl fun k hk => ?_
  have hk := Finset.mem_range.mp hk
  have hk' : k < l.length := by omega
  simp only [matrixPolys]
  rw [interpolate_eval hK _ hk, interpolate_eval hK _ hk, interpolate_eval hK _ hk]
  rw [List.getD_eq_getElem _ _ (by simpa using hk'), List.getD_eq_getElem _ _ (by simpa using hk'),
    List.getD_eq_getElem _ _ (by simpa using hk'), List.getD_eq_getElem _ _ hk']
  simp only [List.getElem_map]

/-! ### The inner sum-check -/

variable {s : VState F} {a b c : MatrixPolys F}

theorem denom_eval (s : VState F) (m : MatrixPolys F) (x : F) :
    denom s (m.row.eval x) (m.col.eval x) (m.row_col.eval x) = (denPoly s m).eval x := by
  unfold denom denPoly
  simp only [eval_add, eval_sub, eval_mul, eval_C]

/-- If the inner check holds at more points than its degree, the claimed sum is right. -/
theorem inner_sound (hH : s.H.Valid) (hK : s.K.Valid) (hK2 : 2 ≤ s.K.size) (hα : s.H.vanishing s.alpha ≠ 0)
    (hβ : s.H.vanishing s.beta ≠ 0) (ha : Good s.H s.K a) (hb : Good s.H s.K b) (hc : Good s.H s.K c)
    {S : Finset F} {deg : Nat} {h2 g2 : F[X]} {t : F} (d1 : h2.natDegree ≤ deg)
    (d2 : g2.natDegree ≤ s.K.size - 2) (hS : deg + 4 * s.K.size < S.card)
    (hacc : ∀ γ ∈ S, innerCheck { s with gamma := γ } (h2.eval γ) (g2.eval γ) t
      (a.val.eval γ) (b.val.eval γ) (c.val.eval γ)
      (denom s (a.row.eval γ) (a.col.eval γ) (a.row_col.eval γ))
      (denom s (b.row.eval γ) (b.col.eval γ) (b.row_col.eval γ))
      (denom s (c.row.eval γ) (c.col.eval γ) (c.row_col.eval γ)) = true) :
    t = ∑ k ∈ Finset.range s.K.size, (numPoly s a b c).eval (s.K.ω ^ k) / (prodPoly s a b c).eval (s.K.ω ^ k) := by
  have hid : h2 * (X ^ s.K.size - 1) - (numPoly s a b c - prodPoly s a b c * (X * g2 + C (t / s.K.size))) = 0 := by
    apply eq_zero_of_many (S := S)
    · have e1 : (X ^ s.K.size - 1 : F[X]).natDegree = s.K.size :=
        natDegree_eq_of_degree_eq_some (Domain.degree_vanishing hK)
      have e2 := num_natDegree ha hb hc
      have e3 : (prodPoly s a b c).natDegree ≤ 3 * (s.K.size - 1) :=
        mul3_natDegree (den_natDegree ha) (den_natDegree hb) (den_natDegree hc)
      have e4 : (X * g2 + C (t / s.K.size)).natDegree ≤ s.K.size := by
        refine Kzg.natDegree_add_le' (natDegree_mul_le.trans ?_) (by rw [natDegree_C]; omega)
        rw [natDegree_X]; omega
      have e5 := natDegree_mul_le (p := h2) (q := X ^ s.K.size - 1)
      have e6 := natDegree_mul_le (p := prodPoly s a b c) (q := X * g2 + C (t / s.K.size))
      have e7 := natDegree_sub_le (numPoly s a b c) (prodPoly s a b c * (X * g2 + C (t / s.K.size)))
      have e8 := natDegree_sub_le (h2 * (X ^ s.K.size - 1))
        (numPoly s a b c - prodPoly s a b c * (X * g2 + C (t / s.K.size)))
      omega
    · intro γ hγ
      have := hacc γ hγ
      unfold innerCheck at this
      rw [decide_eq_true_iff, denom_eval, denom_eval, denom_eval] at this
      rw [eval_sub, eval_mul, Domain.eval_vanishing, this, eval_sub, eval_mul]
      unfold numPoly prodPoly
      simp only [eval_add, eval_mul, eval_C, eval_X]
      ring
  have hpt : ∀ k ∈ Finset.range s.K.size,
      (numPoly s a b c).eval (s.K.ω ^ k) / (prodPoly s a b c).eval (s.K.ω ^ k)
        = s.K.ω ^ k * g2.eval (s.K.ω ^ k) + t / s.K.size := by
    intro k hk
    have hk := Finset.mem_range.mp hk
    have hne : (prodPoly s a b c).eval (s.K.ω ^ k) ≠ 0 := by
      unfold prodPoly
      rw [eval_mul, eval_mul]
      exact mul_ne_zero (mul_ne_zero (den_ne hH hα hβ ha hk) (den_ne hH hα hβ hb hk)) (den_ne hH hα hβ hc hk)
    have h1 := congrArg (eval (s.K.ω ^ k)) hid
    rw [eval_sub, eval_mul, Domain.eval_vanishing, hK.vanishing_element k] at h1
    simp only [eval_sub, eval_mul, eval_add, eval_X, eval_C, eval_zero, mul_zero, zero_sub] at h1
    rw [div_eq_iff hne]
    linear_combination -h1
  rw [Finset.sum_congr rfl hpt, Finset.sum_add_distrib, sum_X_mul hK hK2 d2, zero_add, Finset.sum_const,
    Finset.card_range, nsmul_eq_mul]
  rw [mul_div_cancel₀ _ hK.size_ne]

/-- One matrix's part of the summand. -/
noncomputable def part (H K : Domain F) (m : MatrixPolys F) (α β : F) (k : Nat) : F :=
  m.val.eval (K.ω ^ k) * (cofactor H (m.col.eval (K.ω ^ k))).eval α * (cofactor H (m.row.eval (K.ω ^ k))).eval β

theorem num_div (hH : s.H.Valid) (hα : s.H.vanishing s.alpha ≠ 0)
    (hβ : s.H.vanishing s.beta ≠ 0) (ha : Good s.H s.K a) (hb : Good s.H s.K b) (hc : Good s.H s.K c)
    {k : Nat} (hk : k < s.K.size) :
    (numPoly s a b c).eval (s.K.ω ^ k) / (prodPoly s a b c).eval (s.K.ω ^ k)
      = s.eta_a * part s.H s.K a s.alpha s.beta k + s.eta_b * part s.H s.K b s.alpha s.beta k
        + s.eta_c * part s.H s.K c s.alpha s.beta k := by
  have key : ∀ m : MatrixPolys F, Good s.H s.K m → part s.H s.K m s.alpha s.beta k
      = m.val.eval (s.K.ω ^ k) *
        (s.H.vanishing s.alpha * s.H.vanishing s.beta / (denPoly s m).eval (s.K.ω ^ k)) := by
    intro m hm
    have hne := den_ne hH hα hβ hm hk
    obtain ⟨i, j, e1, e2, e3⟩ := hm.pts k hk
    have hd : (denPoly s m).eval (s.K.ω ^ k) = (s.beta - s.H.ω ^ i) * (s.alpha - s.H.ω ^ j) := by
      unfold denPoly
      simp only [eval_add, eval_sub, eval_mul, eval_C, e1, e2, e3]
      ring
    unfold part
    rw [e1, e2, cofactor_outside (hH.vanishing_element _) hα, cofactor_outside (hH.vanishing_element _) hβ, hd]
    have n1 := vanishing_ne hH hα j
    have n2 := vanishing_ne hH hβ i
    field_simp
  have h1 := den_ne hH hα hβ ha hk
  have h2 := den_ne hH hα hβ hb hk
  have h3 := den_ne hH hα hβ hc hk
  rw [key a ha, key b hb, key c hc]
  unfold numPoly prodPoly
  simp only [eval_add, eval_mul, eval_C]
  field_simp

/-- The polynomial `t` that the protocol is about, for one matrix. -/
noncomputable def tPart (H K : Domain F) (m : MatrixPolys F) (α : F) : F[X] :=
  ∑ k ∈ Finset.range K.size,
    C (m.val.eval (K.ω ^ k) * (cofactor H (m.col.eval (K.ω ^ k))).eval α) * cofactor H (m.row.eval (K.ω ^ k))

theorem tPart_eval (H K : Domain F) (m : MatrixPolys F) (α β : F) :
    (tPart H K m α).eval β = ∑ k ∈ Finset.range K.size, part H K m α β k := by
  unfold tPart part
  rw [eval_finset_sum]
  simp only [eval_mul, eval_C]

theorem tPart_natDegree {H : Domain F} (hH : H.Valid) (K : Domain F) (m : MatrixPolys F) (α : F) :
    (tPart H K m α).natDegree ≤ H.size - 1 := by
  unfold tPart
  exact natDegree_sum_le_of_forall_le _ _ fun k _ => Kzg.natDegree_C_mul_le' _ (cofactor_natDegree hH _)

/-- The value of the variable in column `j`, read from a polynomial at the place the indexer uses. -/
noncomputable def readAt (H D : Domain F) (zp : F[X]) (j : Nat) : F :=
  match reindexBySubdomain H.size D.size j with
  | .ok q => zp.eval (H.ω ^ q)
  | .error _ => 0

/-- Summing `t` against `z` over `H` gives the matrix product. -/
theorem tPart_sum {D H K : Domain F} (hH : H.Valid) (hK : K.Valid) {m : Matrix F} {p : MatrixPolys F}
    (h : compose D H K m = .ok p) (hm : m.length ≤ H.size) (zp : F[X]) (α : F) :
    ∑ j ∈ Finset.range H.size, (tPart H K p α).eval (H.ω ^ j) * zp.eval (H.ω ^ j)
      = ∑ i ∈ Finset.range H.size, (cofactor H (H.ω ^ i)).eval α * rowVal (readAt H D zp) (m.getD i []) := by
  have h1 := compose_sum hK h (fun x => (cofactor H x).eval α)
    (fun r => ∑ j ∈ Finset.range H.size, (cofactor H r).eval (H.ω ^ j) * zp.eval (H.ω ^ j)) (readAt H D zp) (by
      intro j q hq hlt
      rw [sum_cofactor hH hlt (fun k => zp.eval (H.ω ^ k)), ← mul_assoc, inv_mul_cancel₀ (diagonal_ne hH q), one_mul]
      unfold readAt
      rw [hq])
  have h2 : ∑ i ∈ Finset.range H.size, (cofactor H (H.ω ^ i)).eval α * rowVal (readAt H D zp) (m.getD i [])
      = ∑ i ∈ Finset.range m.length, (cofactor H (H.ω ^ i)).eval α * rowVal (readAt H D zp) (m.getD i []) := by
    symm
    apply Finset.sum_subset (Finset.range_subset_range.mpr hm)
    intro i _ hi
    have hi : m.length ≤ i := by simpa using hi
    rw [List.getD_eq_default _ _ hi]
    simp [rowVal]
  rw [h2, ← h1]
  simp only [tPart_eval, Finset.sum_mul, part, Finset.mul_sum]
  rw [Finset.sum_comm]
  refine Finset.sum_congr rfl fun k _ => Finset.sum_congr rfl fun j _ => ?_
  ring

/-! ### The outer sum-check -/

theorem outer_sound (hH : s.H.Valid) (hH2 : 2 ≤ s.H.size) (hα : s.H.vanishing s.alpha ≠ 0)
    {D : Domain F} (hDH : D.size ≤ s.H.size) (hD : D.Valid)
    {S : Finset F} {deg : Nat} {x w za zb mask t g1 h1 : F[X]} (dx : x.natDegree ≤ s.H.size)
    (d1 : w.natDegree ≤ deg) (d2 : za.natDegree ≤ deg) (d3 : zb.natDegree ≤ deg) (d4 : mask.natDegree ≤ deg)
    (d5 : t.natDegree ≤ deg) (d6 : h1.natDegree ≤ deg) (d7 : g1.natDegree ≤ s.H.size - 2)
    (hS : 2 * deg + 2 * s.H.size < S.card)
    (hacc : ∀ β ∈ S, outerCheck { s with beta := β } (D.vanishing β) (x.eval β) (mask.eval β) (za.eval β)
      (zb.eval β) (w.eval β) (t.eval β) (h1.eval β) (g1.eval β) = true) :
    ∑ j ∈ Finset.range s.H.size, (mask.eval (s.H.ω ^ j) + (cofactor s.H (s.H.ω ^ j)).eval s.alpha *
      (s.eta_a * za.eval (s.H.ω ^ j) + s.eta_b * zb.eval (s.H.ω ^ j)
        + s.eta_c * za.eval (s.H.ω ^ j) * zb.eval (s.H.ω ^ j))
      - t.eval (s.H.ω ^ j) * ((X ^ D.size - 1) * w + x).eval (s.H.ω ^ j)) = 0 := by
  set P : F[X] := mask + bivariatePoly s.H s.alpha * (C s.eta_a * za + C s.eta_b * zb + C s.eta_c * za * zb)
    - t * ((X ^ D.size - 1) * w + x) - (h1 * (X ^ s.H.size - 1) + X * g1) with hP
  have hid : P = 0 := by
    apply eq_zero_of_many (S := S)
    · have v1 : (X ^ s.H.size - 1 : F[X]).natDegree = s.H.size :=
        natDegree_eq_of_degree_eq_some (Domain.degree_vanishing hH)
      have v2 : (X ^ D.size - 1 : F[X]).natDegree = D.size :=
        natDegree_eq_of_degree_eq_some (Domain.degree_vanishing hD)
      have hd : P.natDegree ≤ 2 * deg + 2 * s.H.size := by
        rw [hP]
        refine (natDegree_sub_le _ _).trans (max_le ((natDegree_sub_le _ _).trans (max_le
          (Kzg.natDegree_add_le' (by omega) (natDegree_mul_le.trans ?_)) (natDegree_mul_le.trans ?_))) ?_)
        · have e1 := bivariatePoly_natDegree s.H s.alpha
          have e2 : (C s.eta_a * za + C s.eta_b * zb + C s.eta_c * za * zb).natDegree ≤ 2 * deg := by
            refine Kzg.natDegree_add_le' (Kzg.natDegree_add_le' ?_ ?_) ?_
            · exact Kzg.natDegree_C_mul_le' _ (by omega)
            · exact Kzg.natDegree_C_mul_le' _ (by omega)
            · rw [mul_assoc]
              refine Kzg.natDegree_C_mul_le' _ (natDegree_mul_le.trans (by omega))
          omega
        · have e3 : ((X ^ D.size - 1) * w + x).natDegree ≤ s.H.size + deg := by
            refine Kzg.natDegree_add_le' (natDegree_mul_le.trans (by omega)) (by omega)
          omega
        · refine Kzg.natDegree_add_le' (natDegree_mul_le.trans (by omega)) (natDegree_mul_le.trans ?_)
          rw [natDegree_X]; omega
      omega
    · intro β hβ
      have := hacc β hβ
      unfold outerCheck at this
      rw [decide_eq_true_iff] at this
      rw [hP]
      simp only [eval_sub, eval_add, eval_mul, eval_C, eval_X, eval_pow, eval_one, bivariatePoly_eval]
      change _ = h1.eval β * (β ^ s.H.size - 1) + _ at this
      unfold Domain.vanishing at this
      linear_combination this
  have hpt : ∀ j ∈ Finset.range s.H.size, (mask.eval (s.H.ω ^ j) + (cofactor s.H (s.H.ω ^ j)).eval s.alpha *
      (s.eta_a * za.eval (s.H.ω ^ j) + s.eta_b * zb.eval (s.H.ω ^ j)
        + s.eta_c * za.eval (s.H.ω ^ j) * zb.eval (s.H.ω ^ j))
      - t.eval (s.H.ω ^ j) * ((X ^ D.size - 1) * w + x).eval (s.H.ω ^ j))
      = s.H.ω ^ j * g1.eval (s.H.ω ^ j) := by
    intro j _
    have h0 := congrArg (eval (s.H.ω ^ j)) hid
    rw [hP] at h0
    have hv := hH.vanishing_element j
    rw [← Domain.eval_vanishing] at hv
    have hb := bivariate_domain hH hα j
    rw [← bivariatePoly_eval] at hb
    rw [← hb]
    rw [eval_sub, eval_add (p := h1 * _), eval_mul (p := h1), hv] at h0
    simp only [eval_sub, eval_add, eval_mul, eval_C, eval_X, eval_zero, mul_zero, zero_add] at h0 ⊢
    linear_combination h0
  rw [Finset.sum_congr rfl hpt, sum_X_mul hH hH2 d7]

/-- A vector is zero if its combination with the cofactors vanishes at many points. -/
theorem cofactor_comb {H : Domain F} (hH : H.Valid) {S : Finset F} (hS : H.size ≤ S.card) {u : Nat → F}
    (h : ∀ α ∈ S, ∑ i ∈ Finset.range H.size, (cofactor H (H.ω ^ i)).eval α * u i = 0) :
    ∀ i < H.size, u i = 0 := by
  have hid : ∑ i ∈ Finset.range H.size, C (u i) * cofactor H (H.ω ^ i) = 0 := by
    apply eq_zero_of_many (S := S)
    · have : (∑ i ∈ Finset.range H.size, C (u i) * cofactor H (H.ω ^ i)).natDegree ≤ H.size - 1 :=
        natDegree_sum_le_of_forall_le _ _ fun i _ => Kzg.natDegree_C_mul_le' _ (cofactor_natDegree hH _)
      have := hH.pos
      omega
    · intro α hα
      rw [eval_finset_sum, ← h α hα]
      refine Finset.sum_congr rfl fun i _ => ?_
      rw [eval_mul, eval_C]
      ring
  intro i hi
  have h1 := congrArg (eval (H.ω ^ i)) hid
  rw [eval_finset_sum, Finset.sum_eq_single i, eval_mul, eval_C, cofactor_self (hH.vanishing_element i),
    ← diagonal_eq hH hi, eval_zero] at h1
  · exact (mul_eq_zero.mp h1).resolve_right (diagonal_ne hH i)
  · intro j hj hji
    rw [eval_mul, cofactor_other (hH.vanishing_element j) (hH.vanishing_element i)
      (fun he => hji (hH.inj (Finset.mem_range.mp hj) hi he.symm)), mul_zero]
  · intro hn; exact absurd (Finset.mem_range.mpr hi) hn

end Zkp.Marlin
