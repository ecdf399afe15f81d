/- A table committed row by row: the row combination and the multilinear extension. -/
import Verif.Proof.CommitProofs
import Verif.Proof.BulletproofsComplete

namespace Zkp.Cp

open Zkp.Ml Zkp.Spartan

set_option linter.unusedSectionVars false
set_option linter.unusedSimpArgs false

variable {F : Type} [Field F] {G : Type} [AddCommGroup G] [Module F G]

/-- The weight of a position factors into the weights of its high and its low bits. -/
theorem eqWeight_append (r1 r2 : List F) (i j : Nat) (hj : j < 2 ^ r2.length) :
    eqWeight (r1 ++ r2) (i * 2 ^ r2.length + j) = eqWeight r1 i * eqWeight r2 j := by
  induction r1 with
  | nil =>
    rw [List.nil_append, eqWeight_nil, one_mul]
    unfold eqWeight
    apply Finset.prod_congr rfl
    intro k hk
    rw [Finset.mem_range] at hk
    have h : (2 ^ r2.length * i + j).testBit (r2.length - 1 - k) = j.testBit (r2.length - 1 - k) := by
      rw [Nat.testBit_two_pow_mul_add _ hj, if_pos (by omega)]
    rw [mul_comm i, h]
  | cons a r ih =>
    have h : (i * 2 ^ r2.length + j).testBit (r ++ r2).length = i.testBit r.length := by
      rw [mul_comm i, Nat.testBit_two_pow_mul_add _ hj, if_neg (by simp), List.length_append, Nat.add_sub_cancel]
    rw [List.cons_append, eqWeight_cons, eqWeight_cons, ih, h]
    ring

theorem sum_range_mul {M : Type} [AddCommMonoid M] (l r : Nat) (f : Nat → M) :
    ∑ k ∈ Finset.range (l * r), f k = ∑ i ∈ Finset.range l, ∑ j ∈ Finset.range r, f (i * r + j) := by
  induction l with
  | zero => simp
  | succ l ih => rw [Nat.succ_mul, Finset.sum_range_add, ih, Finset.sum_range_succ]

theorem mle_append (v r1 r2 : List F) :
    mle v (r1 ++ r2) = ∑ i ∈ Finset.range (2 ^ r1.length), ∑ j ∈ Finset.range (2 ^ r2.length),
      v.getD (i * 2 ^ r2.length + j) 0 * (eqWeight r1 i * eqWeight r2 j) := by
  unfold mle
  rw [List.length_append, pow_add, sum_range_mul]
  refine Finset.sum_congr rfl fun i _ => Finset.sum_congr rfl fun j hj => ?_
  rw [eqWeight_append _ _ _ _ (Finset.mem_range.1 hj)]

theorem evalEq_getD (r : List F) (i : Nat) (h : i < 2 ^ r.length) : (evalEq r).getD i 0 = eqWeight r i := by
  rw [List.getD_eq_getElem?_getD, evalEq_getElem? r i h]; rfl

/-- The row combination, and its value at the low half of the point. -/
theorem dot_rows (poly r1 r2 : List F) :
    dot ((List.range (2 ^ r2.length)).map fun j => ((List.range (2 ^ r1.length)).map fun i =>
      (evalEq r1).getD i 0 * poly.getD (i * 2 ^ r2.length + j) 0).sum) (evalEq r2) = mle poly (r1 ++ r2) := by
  rw [Bp.dot_eq_sum' _ _ (2 ^ r2.length) (by simp), mle_append, Finset.sum_comm]
  refine Finset.sum_congr rfl fun j hj => ?_
  have hj := Finset.mem_range.1 hj
  rw [Bp.range_map_getD, if_pos hj, evalEq_getD _ _ hj, Bp.range_map_sum, Finset.sum_mul]
  refine Finset.sum_congr rfl fun i hi => ?_
  rw [evalEq_getD _ _ (Finset.mem_range.1 hi)]
  ring

theorem getD_take_drop (v : List F) (a n j : Nat) (h : j < n) : ((v.drop a).take n).getD j 0 = v.getD (a + j) 0 := by
  rw [getD_take _ _ _ h, getD_drop]

/-- The verifier's combination of the row commitments is a commitment to the row combination. -/
theorem commit_rows (g : List G) (h : G) (poly blinds r1 : List F) (r : Nat) :
    commitVec ((List.range (2 ^ r1.length)).map fun i =>
        commitVec g ((poly.drop (i * r)).take r) h (blinds.getD i 0)) (evalEq r1) h (0 : F) =
      commitVec g ((List.range r).map fun j => ((List.range (2 ^ r1.length)).map fun i =>
        (evalEq r1).getD i 0 * poly.getD (i * r + j) 0).sum) h
        ((List.range (2 ^ r1.length)).map fun i => (evalEq r1).getD i 0 * blinds.getD i 0).sum := by
  unfold commitVec
  rw [zero_smul, add_zero, Bp.msm_eq_sum _ _ (2 ^ r1.length) (by rw [evalEq_length]), Bp.msm_eq_sum _ _ r (by simp),
    Bp.range_map_sum, Finset.sum_smul]
  have e : ∀ i ∈ Finset.range (2 ^ r1.length), (evalEq r1).getD i 0 •
      ((List.range (2 ^ r1.length)).map fun i => msm g ((poly.drop (i * r)).take r) + blinds.getD i 0 • h).getD i 0 =
      ∑ j ∈ Finset.range r, ((evalEq r1).getD i 0 * poly.getD (i * r + j) 0) • g.getD j 0 +
        ((evalEq r1).getD i 0 * blinds.getD i 0) • h := by
    intro i hi
    have hi := Finset.mem_range.1 hi
    rw [List.getD_eq_getElem (List.map _ _) _ (by simpa using hi), List.getElem_map, List.getElem_range, smul_add,
      Bp.msm_eq_sum _ _ r (by simp), Finset.smul_sum, smul_smul]
    congr 1
    refine Finset.sum_congr rfl fun j hj => ?_
    rw [smul_smul, getD_take_drop _ _ _ _ (Finset.mem_range.1 hj)]
  rw [Finset.sum_congr rfl e, Finset.sum_add_distrib, Finset.sum_comm]
  congr 1
  refine Finset.sum_congr rfl fun j hj => ?_
  rw [Bp.range_map_getD, if_pos (Finset.mem_range.1 hj), Bp.range_map_sum, Finset.sum_smul]

end Zkp.Cp
