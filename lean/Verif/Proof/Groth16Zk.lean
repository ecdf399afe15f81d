/- The proof elements of Groth16's prover as multiples of the generators. -/
import Verif.Proof.Groth16

set_option linter.unusedSectionVars false
set_option linter.unusedSimpArgs false

namespace Zkp.Groth16

open Polynomial

variable {F : Type} [Field F] [DecidableEq F]
variable {G1 G2 : Type} [AddCommGroup G1] [AddCommGroup G2] [Module F G1] [Module F G2]
variable {D : Domain F}

/-- Key and proof for a run with a satisfying assignment: the first two elements, and the third as
the only solution of the verification equation. -/
theorem createProof_eq (mkDomain : Nat → Option (Domain F)) (csG csP : CS F)
    (hc : csG.constraints = csP.constraints) (hi : csG.inputs.length = csP.inputs.length)
    (ha : csG.aux.length = csP.aux.length) (xs : List F) (hone : csP.inputs = 1 :: xs)
    (hr : inRange csP = true)
    (hD : mkDomain (csP.constraints.length + csP.inputs.length) = some D) (h : D.Valid)
    (hn : csP.constraints.length + csP.inputs.length ≤ D.size) (hs : csP.Sat csP.witness)
    (α β γ δ t : F) (hγ : γ ≠ 0) (hδ : δ ≠ 0) (g1 : G1) (g2 : G2) :
    ∃ (pk : Parameters G1 G2) (a b di : F),
      generateParameters mkDomain csG α β γ δ t g1 g2 = .ok pk ∧
      msm pk.vk.gamma_abc_g1 (1 :: xs) = (di * γ⁻¹) • g1 ∧
      ∀ r s, createProof mkDomain pk csP r s = .ok ⟨(r * δ + a + α) • g1, (s * δ + b + β) • g2,
        (((r * δ + a + α) * (s * δ + b + β) - α * β - di) * δ⁻¹) • g1⟩ := by
  have hreq : csG.constraints.length + (csG.inputs.length - 1) + 1 =
      csP.constraints.length + csP.inputs.length := by
    rw [hc, hi, hone]; simp; omega
  have hrG : inRange csG = true := by rw [inRange_congr hc hi ha, hr]
  set q := instanceMap D csP t with hq
  obtain ⟨la, da⟩ := instanceMap_a (D := D) hr hn t
  obtain ⟨lb, db⟩ := instanceMap_b (D := D) hr (by omega) t
  obtain ⟨lc, dc⟩ := instanceMap_c (D := D) hr (by omega) t
  rw [← hq] at la da lb db lc dc
  set a := (polyOf (D.ifft (evalsA D csP))).eval t with hadef
  set b := (polyOf (D.ifft (evalsB D csP))).eval t with hbdef
  set c := (polyOf (D.ifft (evalsC D csP))).eval t with hcdef
  have hsz : q.size = D.size := rfl
  have hzt : q.zt = D.vanishing t := rfl
  obtain ⟨lcomb, dcomb⟩ := dot_combine α β q (full csP) la lb lc
  rw [da, db, dc] at dcomb
  have hle : csP.inputs.length ≤ (combine α β 1 q).length := by rw [lcomb]; simp [full]
  have hsplit : dot ((combine α β 1 q).take csP.inputs.length) csP.inputs +
      dot ((combine α β 1 q).drop csP.inputs.length) csP.aux = β * a + α * b + c := by
    rw [← dcomb, ← dot_append (by simp [hle]), List.take_append_drop]
    rfl
  set di := dot ((combine α β 1 q).take csP.inputs.length) csP.inputs with hdi
  set dx := dot ((combine α β 1 q).drop csP.inputs.length) csP.aux with hdx
  have hl : msm (((combine α β δ⁻¹ q).map fun x => x • g1).drop csP.inputs.length) csP.aux =
      (dx * δ⁻¹) • g1 := by
    rw [← List.map_drop, msm_map, combine_eq, ← List.map_drop, dot_map_mul]
  have hh : msm ((List.range (q.size - 1)).map fun i => (q.zt * δ⁻¹ * t ^ i) • g1) (witnessMap D csP) =
      (D.vanishing t * δ⁻¹ * ∑ i ∈ Finset.range (D.size - 1), (witnessMap D csP).getD i 0 * t ^ i) •
        g1 := by
    rw [hsz, hzt, msm_h _ _ _ _ _ _ (by rw [witnessMap_length]; have := h.pos; omega)]
  have hquot : D.vanishing t * ∑ i ∈ Finset.range (D.size - 1), (witnessMap D csP).getD i 0 * t ^ i =
      a * b - c := by
    obtain ⟨q1, q2⟩ := quotient h hr (by omega) hs
    have e1 := congrArg (eval t) q1
    rw [eval_sub, eval_mul, eval_mul, Domain.eval_vanishing, polyOf_eval (witnessMap D csP),
      witnessMap_length] at e1
    have hp : D.size = D.size - 1 + 1 := by have := h.pos; omega
    rw [polyOf_coeff] at q2
    have e2 : ∑ j ∈ Finset.range D.size, (witnessMap D csP).getD j 0 * t ^ j =
        ∑ j ∈ Finset.range (D.size - 1), (witnessMap D csP).getD j 0 * t ^ j := by
      conv_lhs => rw [hp, Finset.sum_range_succ, q2, zero_mul, add_zero]
    rw [e2] at e1
    rw [mul_comm]
    exact e1.symm
  refine ⟨?pk, a, b, di, ?_, ?_, fun r s => ?_⟩
  · exact {
      vk := {
        alpha_g1 := α • g1
        beta_g2 := β • g2
        gamma_g2 := γ • g2
        delta_g2 := δ • g2
        gamma_abc_g1 := ((combine α β γ⁻¹ q).take csP.inputs.length).map fun x => x • g1 }
      beta_g1 := β • g1
      delta_g1 := δ • g1
      a_query := q.a.map fun x => x • g1
      b_g1_query := q.b.map fun x => x • g1
      b_g2_query := q.b.map fun x => x • g2
      h_query := (List.range (q.size - 1)).map fun i => (q.zt * δ⁻¹ * t ^ i) • g1
      l_query := ((combine α β δ⁻¹ q).map fun x => x • g1).drop csP.inputs.length }
  · unfold generateParameters
    rw [hreq, hD]
    simp only [hrG, hγ, hδ, if_false, Bool.true_eq_false, instanceMap_congr hc hi ha, hi, hq]
  · simp only
    rw [← hone, msm_map, combine_eq, ← List.map_take, dot_map_mul]
  · unfold createProof
    have hfull : full csP = 1 :: (xs ++ csP.aux) := by simp [full, hone]
    have htail : csP.inputs.tail ++ csP.aux = xs ++ csP.aux := by simp [hone]
    rw [hD]
    simp only [hr, if_false, Bool.true_eq_false, htail]
    rw [calculateCoeff_map _ _ g1 q.a (full csP) 1 _ hfull rfl la,
      calculateCoeff_map _ _ g2 q.b (full csP) 1 _ hfull rfl lb,
      calculateCoeff_map _ _ g1 q.b (full csP) 1 _ hfull rfl lb, da, db, hl, hh]
    trans Except.ok (⟨r • δ • g1 + a • g1 + α • g1, s • δ • g2 + b • g2 + β • g2,
      s • (r • δ • g1 + a • g1 + α • g1) + r • (s • δ • g1 + b • g1 + β • g1) - s • r • δ • g1 +
        (dx * δ⁻¹) • g1 + (D.vanishing t * δ⁻¹ * ∑ i ∈ Finset.range (D.size - 1),
          (witnessMap D csP).getD i 0 * t ^ i) • g1⟩ : Proof G1 G2)
    · by_cases h0 : r = 0 <;> simp [h0, orPanic, bind, Except.bind]
    have hdx' : dx = β * a + α * b + c - di := by rw [← hsplit]; ring
    congr 2
    · module
    · module
    · rw [hdx', show D.vanishing t * δ⁻¹ * ∑ i ∈ Finset.range (D.size - 1),
        (witnessMap D csP).getD i 0 * t ^ i = (a * b - c) * δ⁻¹ by rw [← hquot]; ring]
      match_scalars
      field_simp
      ring

end Zkp.Groth16
