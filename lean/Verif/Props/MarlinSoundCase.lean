/- Property C35: a case that meets everything that `C35_partial` assumes. -/
import Verif.Proof.MarlinEx97
import Verif.Proof.MarlinTwinRun

set_option linter.unusedSectionVars false
set_option linter.unusedSimpArgs false

namespace Zkp.Marlin

open Polynomial

namespace Case97

open Ex97

/-- The challenges outside of the domain. -/
def S97 : Finset F97 := Finset.univ.filter fun x => H4.vanishing x ≠ 0

/-- The polynomial of the outer sum-check. -/
noncomputable def q97 (o : FirstOracles F97) (α ηa ηb ηc : F97) : F97[X] :=
  o.mask + (bivariatePoly H4 α * mPoly ⟨α, ηa, ηb, ηc⟩ o.za o.zb
    - tSum H4 H4 ix97 ⟨α, ηa, ηb, ηc⟩ * (o.w * (X ^ X2.size - 1) + interpolate X2 [1, 6]))

/-- The polynomial of the inner sum-check. -/
noncomputable def sum97 (α ηa ηb ηc β : F97) : F97[X] :=
  sumPoly ⟨H4, H4, α, ηa, ηb, ηc, β, 0⟩ ix97.a_star ix97.b_star ix97.c_star

/-- Its quotient. -/
noncomputable def h97 (α ηa ηb ηc β : F97) : F97[X] :=
  (numPoly ⟨H4, H4, α, ηa, ηb, ηc, β, 0⟩ ix97.a_star ix97.b_star ix97.c_star
    - prodPoly ⟨H4, H4, α, ηa, ηb, ηc, β, 0⟩ ix97.a_star ix97.b_star ix97.c_star * sum97 α ηa ηb ηc β)
      / (X ^ H4.size - 1)

theorem le3 (v : List F97) : (interpolate H4 v).natDegree ≤ 3 := natDegree_le_of_degree (interpolate_degree H4 v)

theorem den97_le (s : VState F97) (l : List (F97 × F97 × F97)) : (denPoly s (matrixPolys H4 l)).natDegree ≤ 3 := by
  unfold denPoly matrixPolys
  have sub : ∀ {p q : F97[X]}, p.natDegree ≤ 3 → q.natDegree ≤ 3 → (p - q).natDegree ≤ 3 := fun hp hq =>
    (natDegree_sub_le_of_le hp hq).trans (max_self 3).le
  refine Kzg.natDegree_add_le' (sub (sub ?_ ?_) ?_) (le3 _)
  · rw [natDegree_C]
    omega
  · exact Kzg.natDegree_C_mul_le' _ (le3 _)
  · exact Kzg.natDegree_C_mul_le' _ (le3 _)

theorem h97_natDegree (α ηa ηb ηc β : F97) : (h97 α ηa ηb ηc β).natDegree ≤ 8 := by
  unfold h97
  rw [div_vanish_natDegree h4_valid]
  set s : VState F97 := ⟨H4, H4, α, ηa, ηb, ηc, β, 0⟩
  have da : (denPoly s ix97.a_star).natDegree ≤ 3 := den97_le s _
  have db : (denPoly s ix97.b_star).natDegree ≤ 3 := den97_le s _
  have dc : (denPoly s ix97.c_star).natDegree ≤ 3 := den97_le s _
  have hterm : ∀ (η : F97) (w p q : F97[X]), w.natDegree ≤ 3 → p.natDegree ≤ 3 → q.natDegree ≤ 3 →
      (C η * w * p * q).natDegree ≤ 9 := by
    intro η w p q hw hp hq
    refine natDegree_mul_le.trans ?_
    have h1 := natDegree_mul_le (p := C η * w) (q := p)
    have h2 := Kzg.natDegree_C_mul_le' η hw
    omega
  have hnum : (numPoly s ix97.a_star ix97.b_star ix97.c_star).natDegree ≤ 9 := by
    unfold numPoly
    refine natDegree_mul_le.trans ?_
    rw [natDegree_C, add_zero]
    exact Kzg.natDegree_add_le' (Kzg.natDegree_add_le' (hterm _ _ _ _ (le3 _) db dc) (hterm _ _ _ _ (le3 _) dc da))
      (hterm _ _ _ _ (le3 _) da db)
  have hprod : (prodPoly s ix97.a_star ix97.b_star ix97.c_star).natDegree ≤ 9 := by
    unfold prodPoly
    refine natDegree_mul_le.trans ?_
    have := natDegree_mul_le (p := denPoly s ix97.a_star) (q := denPoly s ix97.b_star)
    omega
  have hps : (prodPoly s ix97.a_star ix97.b_star ix97.c_star * sum97 α ηa ηb ηc β).natDegree ≤ 12 := by
    refine natDegree_mul_le.trans ?_
    have : (sum97 α ηa ηb ηc β).natDegree ≤ 3 := le3 _
    omega
  have := natDegree_sub_le_of_le hnum hps
  change _ - 4 ≤ 8
  omega

theorem q97_natDegree {o : FirstOracles F97} (ho : First97 o) (α ηa ηb ηc : F97) :
    (q97 o α ηa ηb ηc).natDegree ≤ 11 := by
  have a1 := (plen_eq (ho.za ▸ za_len : plen o.za = 4 + 1)).2
  have b1 := (plen_eq (ho.zb ▸ za_len : plen o.zb = 4 + 1)).2
  unfold q97
  rw [mPoly_eq (by rw [ho.za, ho.zb, za_len, za_len]) (by rw [ho.za, za_len]; omega)]
  refine Kzg.natDegree_add_le' (by rw [ho.mask, natDegree_X]; omega) (natDegree_sub_le_of_le ?_ ?_ |>.trans (max_self 11).le)
  · refine natDegree_mul_le.trans ?_
    have h1 : (bivariatePoly H4 α).natDegree ≤ 3 := bivariatePoly_natDegree H4 α
    have h2 : (C ηa * o.za + C ηb * o.zb + C ηc * (o.za * o.zb)).natDegree ≤ 8 := by
      refine Kzg.natDegree_add_le' (Kzg.natDegree_add_le' (Kzg.natDegree_C_mul_le' _ (by omega))
        (Kzg.natDegree_C_mul_le' _ (by omega))) (Kzg.natDegree_C_mul_le' _ (natDegree_mul_le.trans (by omega)))
    dsimp only
    omega
  · refine natDegree_mul_le.trans ?_
    have h1 : (tSum H4 H4 ix97 ⟨α, ηa, ηb, ηc⟩).natDegree ≤ 3 := by
      unfold tSum
      have := fun m => tPart_natDegree h4_valid H4 m α
      exact Kzg.natDegree_add_le' (Kzg.natDegree_add_le' (Kzg.natDegree_C_mul_le' _ (this _))
        (Kzg.natDegree_C_mul_le' _ (this _))) (Kzg.natDegree_C_mul_le' _ (this _))
    have h2 : (o.w * (X ^ X2.size - 1) + interpolate X2 [1, 6]).natDegree ≤ 4 := by
      refine Kzg.natDegree_add_le' (natDegree_mul_le.trans ?_) ((natDegree_le_of_degree (interpolate_degree _ _)).trans
        (by decide))
      rw [ho.w, vanish_natDegree]
      decide
    omega

/-- The honest messages pass the outer equation, whatever the challenges are. -/
theorem outer97 {o : FirstOracles F97} (ho : First97 o) {α : F97} (hα : α ∈ S97) (ηa ηb ηc β γ : F97) :
    outerCheck ⟨H4, H4, α, ηa, ηb, ηc, β, γ⟩ (X2.vanishing β) ((interpolate X2 [1, 6]).eval β) (o.mask.eval β)
      (o.za.eval β) (o.zb.eval β) (o.w.eval β) ((tSum H4 H4 ix97 ⟨α, ηa, ηb, ηc⟩).eval β)
      ((q97 o α ηa ηb ηc / (X ^ H4.size - 1)).eval β)
      ((q97 o α ηa ηb ηc % (X ^ H4.size - 1)).divX.eval β) = true := by
  have hα : H4.vanishing α ≠ 0 := (Finset.mem_filter.mp hα).2
  obtain ⟨-, -, D', H', K', hD', hH', -, hK', ca, cb, cc⟩ := ahpIndex_full (ahp97 true)
  have e1 : X2 = D' := Option.some.inj hD'
  have e2 : H4 = H' := Option.some.inj hH'
  have e3 : H4 = K' := Option.some.inj hK'
  rw [← e1, ← e2, ← e3] at ca cb cc
  have hlen : plen o.za = plen o.zb := by rw [ho.za, ho.zb, za_len, za_len]
  have hpos : 0 < plen o.za := by rw [ho.za, za_len]; omega
  have hsum : ∑ k ∈ Finset.range H4.size, (q97 o α ηa ηb ηc).eval (H4.ω ^ k) = 0 := by
    unfold q97
    refine outer_zero (m := ⟨α, ηa, ηb, ηc⟩) h4_valid h4_valid hα ca cb cc
      (z := fun j => ([1, 6, 2, 3] : List F97).getD j 0) ?_ ?_ (by decide) ?_ ?_ ?_ hlen hpos
    · intro j q hr hq
      rw [ho.z q hq]
      have hj : j < 4 := by
        by_contra hj
        unfold reindexBySubdomain at hr
        rw [if_neg (by decide), if_neg (by change ¬ j < 2; omega), if_neg (by decide)] at hr
        have hr := Except.ok.inj hr
        change j - 2 + (j - 2) / (4 / 2 - 1) + 1 = q at hr
        change q < 4 at hq
        omega
      have e : reindexBySubdomain H4.size X2.size j = .ok (([0, 2, 1, 3] : List Nat).getD j 0) := by
        interval_cases j <;> rfl
      rw [e] at hr
      have hr := Except.ok.inj hr
      subst hr
      clear e hq
      interval_cases j <;> rfl
    · refine ⟨rfl, rfl, ?_⟩
      decide +kernel
    · intro i hi
      rw [ho.za, blinded_eval h4_valid _ _ hi]
      clear hlen hpos
      revert i
      decide +kernel
    · intro i hi
      rw [ho.zb, blinded_eval h4_valid _ _ hi]
      clear hlen hpos
      revert i
      decide +kernel
    · rw [ho.mask]
      simp only [eval_X]
      decide +kernel
  have hq : (q97 o α ηa ηb ηc).eval β = (q97 o α ηa ηb ηc / (X ^ H4.size - 1)).eval β * H4.vanishing β
      + β * (q97 o α ηa ηb ηc % (X ^ H4.size - 1)).divX.eval β := by
    set q := q97 o α ηa ηb ηc
    rw [sum_mod h4_valid (by decide)] at hsum
    have h0 : (q % (X ^ H4.size - 1)).coeff 0 = 0 := (mul_eq_zero.mp hsum).resolve_left h4_valid.size_ne
    have e1 : q % (X ^ H4.size - 1) = (q % (X ^ H4.size - 1)).divX * X := by
      conv_lhs => rw [← divX_mul_X_add (q % (X ^ H4.size - 1)), h0, C_0, add_zero]
    conv_lhs => rw [← EuclideanDomain.div_add_mod q (X ^ H4.size - 1), e1]
    rw [eval_add, eval_mul, eval_mul, eval_X, Domain.eval_vanishing]
    ring
  unfold outerCheck
  dsimp only
  rw [decide_eq_true_iff, ← hq]
  unfold q97
  rw [eval_add, eval_sub, eval_mul, eval_mul, eval_add, eval_mul, Domain.eval_vanishing, bivariatePoly_eval,
    mPoly_eval hlen hpos]
  ring

/-- They pass the inner equation. -/
theorem inner97 {α β : F97} (hα : α ∈ S97) (hβ : β ∈ S97) (ηa ηb ηc γ : F97) :
    let s : VState F97 := ⟨H4, H4, α, ηa, ηb, ηc, β, γ⟩
    innerCheck s ((h97 α ηa ηb ηc β).eval γ) ((sum97 α ηa ηb ηc β).divX.eval γ)
      ((tSum H4 H4 ix97 ⟨α, ηa, ηb, ηc⟩).eval β)
      (ix97.a_star.val.eval γ) (ix97.b_star.val.eval γ) (ix97.c_star.val.eval γ)
      (denom s (ix97.a_star.row.eval γ) (ix97.a_star.col.eval γ) (ix97.a_star.row_col.eval γ))
      (denom s (ix97.b_star.row.eval γ) (ix97.b_star.col.eval γ) (ix97.b_star.row_col.eval γ))
      (denom s (ix97.c_star.row.eval γ) (ix97.c_star.col.eval γ) (ix97.c_star.row_col.eval γ)) = true := by
  intro s
  have hα : H4.vanishing α ≠ 0 := (Finset.mem_filter.mp hα).2
  have hβ : H4.vanishing β ≠ 0 := (Finset.mem_filter.mp hβ).2
  obtain ⟨-, -, D', H', K', hD', hH', -, hK', ca, cb, cc⟩ := ahpIndex_full (ahp97 true)
  have e1 : X2 = D' := Option.some.inj hD'
  have e2 : H4 = H' := Option.some.inj hH'
  have e3 : H4 = K' := Option.some.inj hK'
  rw [← e1, ← e2, ← e3] at ca cb cc
  have ga := compose_good h4_valid ca
  have gb := compose_good h4_valid cb
  have gc := compose_good h4_valid cc
  rw [t_at_beta (m := ⟨α, ηa, ηb, ηc⟩) (γ := γ) h4_valid h4_valid (by decide) hα hβ ga gb gc]
  exact inner_forged (s := s) h4_valid h4_valid hα hβ ga gb gc

/-- `C35_partial` on the circuit `x y = 6`, `x + y = 6 - 1` over the field with 97 elements, with the honest
prover's polynomials: all its hypotheses are met, with 93 challenges. -/
example : ∃ z : Nat → F97, (∀ i ≤ 1, z i = ([1, 6] : List F97).getD i 0) ∧ CS.Sat (assign 2 z) cs97 := by
  obtain ⟨o, ho⟩ := first97
  have a1 := (plen_eq (ho.za ▸ za_len : plen o.za = 4 + 1)).2
  have b1 := (plen_eq (ho.zb ▸ za_len : plen o.zb = 4 + 1)).2
  refine C35_partial (checked := true) mk97_ok (ahp97 true) (H := H4) (K := H4) (D := X2) rfl rfl (by decide)
    (by decide) [6] rfl rfl 8 (by decide) o.w o.za o.zb o.mask
    (fun α ηa ηb ηc => tSum H4 H4 ix97 ⟨α, ηa, ηb, ηc⟩)
    (fun α ηa ηb ηc => (q97 o α ηa ηb ηc % (X ^ H4.size - 1)).divX)
    (fun α ηa ηb ηc => q97 o α ηa ηb ηc / (X ^ H4.size - 1))
    (fun α ηa ηb ηc β => (sum97 α ηa ηb ηc β).divX)
    (fun α ηa ηb ηc β => h97 α ηa ηb ηc β)
    (by rw [ho.w]; omega) (by omega) (by omega) (by rw [ho.mask, natDegree_X]; omega) ?_ ?_ S97 ?_
    (fun x hx => (Finset.mem_filter.mp hx).2) ?_ ?_
  · intro α ηa ηb ηc
    refine ⟨?_, ?_, natDegree_divX_le (mod_degree h4_valid _)⟩
    · unfold tSum
      have := fun m => (tPart_natDegree h4_valid H4 m α).trans (by decide : H4.size - 1 ≤ 8)
      exact Kzg.natDegree_add_le' (Kzg.natDegree_add_le' (Kzg.natDegree_C_mul_le' _ (this _))
        (Kzg.natDegree_C_mul_le' _ (this _))) (Kzg.natDegree_C_mul_le' _ (this _))
    · rw [div_vanish_natDegree h4_valid]
      have := q97_natDegree ho α ηa ηb ηc
      change _ - 4 ≤ 8
      omega
  · intro α ηa ηb ηc β
    exact ⟨h97_natDegree _ _ _ _ _, natDegree_divX_le (interpolate_degree H4 _)⟩
  · decide +kernel
  · intro α hα ηa _ ηb _ ηc _ β _ γ _
    exact outer97 ho hα ηa ηb ηc β γ
  · intro α hα ηa _ ηb _ ηc _ β hβ γ _
    exact inner97 hα hβ ηa ηb ηc γ

end Case97

end Zkp.Marlin
