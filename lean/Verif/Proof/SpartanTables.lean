/- The tables behind Spartan's two sum-checks, for the witness that linear functionals read from the commitments. -/
import Verif.Spec.SpartanSat
import Verif.Proof.HidingSound
import Verif.Props.SpartanNizk
import Verif.Props.Libra

namespace Zkp.Spartan

open Zkp.Ml Zkp.Sc
open Zkp.Cp (evalEq_getD mle_append)

set_option linter.unusedSectionVars false
set_option linter.unusedSimpArgs false

variable {F : Type} [Field F] {G : Type} [AddCommGroup G] [Module F G] [DecidableEq F] [DecidableEq G]

/-- The witness read from the row commitments: the coefficient of the column's generator, minus that of the first. -/
def wit (φ : Nat → G →ₗ[F] F) (m : Nat) (com : List G) : List F :=
  (List.range (2 ^ m)).map fun n => φ (n % 2 ^ (m - m / 2) + 1) (com.getD (n / 2 ^ (m - m / 2)) 0) -
    φ 0 (com.getD (n / 2 ^ (m - m / 2)) 0)

theorem wit_length (φ : Nat → G →ₗ[F] F) (m : Nat) (com : List G) : (wit φ m com).length = 2 ^ m := by simp [wit]

/-- The table of all variables: the witness, then the public inputs. -/
def zTab (w inputs : List F) (m : Nat) : List F := w ++ (1 :: inputs ++ List.replicate (2 ^ m - inputs.length - 1) 0)

theorem zTab_length (w inputs : List F) (m : Nat) (hw : w.length = 2 ^ m) (hi : inputs.length + 1 ≤ 2 ^ m) :
    (zTab w inputs m).length = 2 ^ (m + 1) := by
  rw [pow_succ]; simp [zTab, hw]; omega

/-- The assignment of a table of variables. -/
def assign (aux : Nat → F) (inputs : List F) : Index → F
  | .aux i => aux i
  | .input i => (1 :: inputs).getD i 0

theorem zTab_col (w inputs : List F) (m : Nat) (hw : w.length = 2 ^ m) (x : Index) :
    (zTab w inputs m).getD (col (2 ^ m) x) 0 = assign (fun i => (zTab w inputs m).getD i 0) inputs x := by
  cases x with
  | aux i => rfl
  | input i =>
    change (zTab w inputs m).getD (i + 2 ^ m) 0 = (1 :: inputs).getD i 0
    unfold zTab
    rw [List.getD_append_right _ _ _ _ (by omega), hw, Nat.add_sub_cancel]
    by_cases h : i < (1 :: inputs).length
    · rw [List.getD_append _ _ _ _ h]
    · rw [List.getD_append_right _ _ _ _ (by omega), List.getD_eq_default (1 :: inputs) _ (by omega)]
      simp [List.getD_eq_getElem?_getD, List.getElem?_replicate]
      split <;> rfl

/-- The values of all rows. -/
def rowTab (rows : Rows F) (z : Index → F) (nx : Nat) : List F :=
  (List.range (2 ^ nx)).map fun i => rowVal z (rows.getD i [])

/-- The columns of a matrix, combined with the weights of `rx`. -/
def colSum (rows : Rows F) (rx : List F) (m c : Nat) : F :=
  ∑ i ∈ Finset.range (2 ^ rx.length), entry (col (2 ^ m)) (rows.getD i []) c * eqWeight rx i

/-- The table of the second sum-check. -/
def combTab (s : Inst F) (rx : List F) (m : Nat) (ra rb rc : F) : List F :=
  (List.range (2 ^ (m + 1))).map fun c => ra * colSum s.a rx m c + rb * colSum s.b rx m c + rc * colSum s.c rx m c

theorem rowVal_entry (row : List (F × Index)) (w inputs : List F) (m : Nat) (hw : w.length = 2 ^ m)
    (hf : ∀ t ∈ row, col (2 ^ m) t.2 < 2 ^ (m + 1)) :
    rowVal (assign (fun i => (zTab w inputs m).getD i 0) inputs) row =
      ∑ c ∈ Finset.range (2 ^ (m + 1)), entry (col (2 ^ m)) row c * (zTab w inputs m).getD c 0 := by
  have hb : ∀ t ∈ row.map fun t => (t.1, col (2 ^ m) t.2), t.2 < 2 ^ (m + 1) := by
    intro t ht
    obtain ⟨t', ht', rfl⟩ := List.mem_map.1 ht
    exact hf t' ht'
  have := sum_indicator _ (2 ^ (m + 1)) (fun c => (zTab w inputs m).getD c 0) hb
  rw [List.map_map] at this
  unfold rowVal
  simp only [Function.comp_def, zTab_col w inputs m hw] at this
  rw [this]
  refine Finset.sum_congr rfl fun c _ => ?_
  unfold entry
  rw [List.filter_map, List.map_map]
  rfl

theorem mle_rowTab (rows : Rows F) (w inputs : List F) (m nx : Nat) (hw : w.length = 2 ^ m) (hf : Ml.Fits rows nx m)
    (rx : List F) (hx : rx.length = nx) :
    mle (rowTab rows (assign (fun i => (zTab w inputs m).getD i 0) inputs) nx) rx =
      ∑ c ∈ Finset.range (2 ^ (m + 1)), (zTab w inputs m).getD c 0 * colSum rows rx m c := by
  unfold mle colSum
  simp only [Finset.mul_sum]
  rw [Finset.sum_comm]
  refine Finset.sum_congr rfl fun i hi => ?_
  rw [hx] at hi
  unfold rowTab
  rw [getD_map_range _ _ (Finset.mem_range.1 hi), rowVal_entry _ w inputs m hw, Finset.sum_mul]
  · refine Finset.sum_congr rfl fun c _ => by ring
  · intro t ht
    by_cases h : i < rows.length
    · rw [List.getD_eq_getElem _ _ h] at ht
      exact hf.2 _ (List.getElem_mem h) t ht
    · rw [List.getD_eq_default _ _ (by omega)] at ht; simp at ht

theorem mle_colSum (rows : Rows F) (rx ry : List F) (m : Nat) (hy : ry.length = m + 1) (hf : Ml.Fits rows rx.length m)
    (v : F) (hv : evaluateMle rows rx ry = some v) :
    ∑ c ∈ Finset.range (2 ^ ry.length), colSum rows rx m c * eqWeight ry c = v := by
  rw [C46_evaluateMle rows rx ry m hy hf] at hv
  rw [← Option.some.inj hv, Finset.sum_comm]
  refine Finset.sum_congr rfl fun c _ => ?_
  unfold colSum
  rw [Finset.sum_mul]

theorem mle_combTab (s : Inst F) (rx ry : List F) (m : Nat) (ra rb rc a b c : F) (hy : ry.length = m + 1)
    (h1 : Ml.Fits s.a rx.length m) (h2 : Ml.Fits s.b rx.length m) (h3 : Ml.Fits s.c rx.length m)
    (ha : evaluateMle s.a rx ry = some a) (hb : evaluateMle s.b rx ry = some b) (hc : evaluateMle s.c rx ry = some c) :
    mle (combTab s rx m ra rb rc) ry = a * ra + b * rb + c * rc := by
  rw [← mle_colSum _ rx ry m hy h1 a ha, ← mle_colSum _ rx ry m hy h2 b hb, ← mle_colSum _ rx ry m hy h3 c hc,
    Finset.sum_mul, Finset.sum_mul, Finset.sum_mul, ← Finset.sum_add_distrib, ← Finset.sum_add_distrib]
  unfold mle
  refine Finset.sum_congr rfl fun j hj => ?_
  rw [hy] at hj
  unfold combTab
  rw [getD_map_range _ _ (Finset.mem_range.1 hj)]
  ring

theorem combTab_length (s : Inst F) (rx : List F) (m : Nat) (ra rb rc : F) :
    (combTab s rx m ra rb rc).length = 2 ^ (m + 1) := by simp [combTab]

/-- The tables of the first sum-check. -/
def tabsOne (s : Inst F) (z : Index → F) (nx : Nat) (tau : List F) : List (List F) :=
  [evalEq tau, rowTab s.a z nx, rowTab s.b z nx, rowTab s.c z nx]

/-- The errors of all rows. -/
def errTab (s : Inst F) (z : Index → F) (nx : Nat) : List F :=
  (List.range (2 ^ nx)).map fun i =>
    rowVal z (s.a.getD i []) * rowVal z (s.b.getD i []) - rowVal z (s.c.getD i [])

theorem tabsOne_ok (s : Inst F) (z : Index → F) (nx : Nat) (tau : List F) (ht : tau.length = nx) :
    TablesOk nx (tabsOne s z nx tau) := by
  refine ⟨by simp [tabsOne], ?_⟩
  intro t h
  simp only [tabsOne, List.mem_cons, List.not_mem_nil, or_false] at h
  rcases h with rfl | rfl | rfl | rfl
  · rw [evalEq_length, ht]
  all_goals simp [rowTab]

theorem total_one (s : Inst F) (z : Index → F) (nx : Nat) (tau : List F) (ht : tau.length = nx) :
    total spartanOne (tabsOne s z nx tau) = mle (errTab s z nx) tau := by
  unfold total mle
  rw [tableLen_eq (tabsOne_ok s z nx tau ht), ht]
  refine Finset.sum_congr rfl fun j hj => ?_
  have hj := Finset.mem_range.1 hj
  have e1 : (evalEq tau).getD j 0 = eqWeight tau j := evalEq_getD _ _ (by rw [ht]; exact hj)
  simp only [spartanOne, cells, tabsOne, errTab, rowTab, List.getD_cons_zero, List.getD_cons_succ, e1]
  rw [getD_map_range _ _ hj, getD_map_range _ _ hj, getD_map_range _ _ hj, getD_map_range _ _ hj]
  ring

theorem tabsTwo_ok (s : Inst F) (w inputs : List F) (m : Nat) (hw : w.length = 2 ^ m) (hi : inputs.length + 1 ≤ 2 ^ m)
    (rx : List F) (ra rb rc : F) : TablesOk (m + 1) [zTab w inputs m, combTab s rx m ra rb rc] := by
  refine ⟨by simp, ?_⟩
  intro t h
  simp only [List.mem_cons, List.not_mem_nil, or_false] at h
  rcases h with rfl | rfl
  · exact zTab_length _ _ _ hw hi
  · exact combTab_length _ _ _ _ _ _

theorem total_two (s : Inst F) (w inputs : List F) (m nx : Nat) (hw : w.length = 2 ^ m) (hi : inputs.length + 1 ≤ 2 ^ m)
    (h1 : Ml.Fits s.a nx m) (h2 : Ml.Fits s.b nx m) (h3 : Ml.Fits s.c nx m)
    (rx : List F) (hx : rx.length = nx) (ra rb rc : F) :
    total spartanTwo [zTab w inputs m, combTab s rx m ra rb rc] =
      ra * mle (rowTab s.a (assign (fun i => (zTab w inputs m).getD i 0) inputs) nx) rx +
      rb * mle (rowTab s.b (assign (fun i => (zTab w inputs m).getD i 0) inputs) nx) rx +
      rc * mle (rowTab s.c (assign (fun i => (zTab w inputs m).getD i 0) inputs) nx) rx := by
  rw [mle_rowTab _ _ _ _ _ hw h1 rx hx, mle_rowTab _ _ _ _ _ hw h2 rx hx, mle_rowTab _ _ _ _ _ hw h3 rx hx]
  unfold total
  rw [tableLen_eq (tabsTwo_ok s w inputs m hw hi rx ra rb rc), Finset.mul_sum, Finset.mul_sum, Finset.mul_sum,
    ← Finset.sum_add_distrib, ← Finset.sum_add_distrib]
  refine Finset.sum_congr rfl fun j hj => ?_
  simp only [spartanTwo, cells, combTab, List.getD_cons_zero, List.getD_cons_succ]
  rw [getD_map_range _ _ (Finset.mem_range.1 hj)]
  ring

theorem mle_zTab (w inputs : List F) (m : Nat) (hw : w.length = 2 ^ m) (y0 : F) (ys : List F) (hy : ys.length = m) :
    mle (zTab w inputs m) (y0 :: ys) = (1 - y0) * mle w ys +
      y0 * mle (1 :: inputs ++ List.replicate (2 ^ m - inputs.length - 1) 0) ys := by
  rw [mle_cons, hy, ← hw]
  unfold zTab
  rw [List.take_left, List.drop_left, hw]

/-- The functional of the inner product at the combined rows. -/
theorem balance_rows (φ : Nat → G →ₗ[F] F) (h : G) (hh : ∀ j, φ j h = 0) (m : Nat) (ys : List F) (hy : ys.length = m)
    (com : List G) :
    balance φ (ys.drop (ys.length / 2)) (commitVec com (evalEq (ys.take (ys.length / 2))) h (0 : F)) =
      -mle (wit φ m com) ys := by
  obtain ⟨y1, hy1⟩ : ∃ y1, y1 = ys.take (ys.length / 2) := ⟨_, rfl⟩
  obtain ⟨y2, hy2⟩ : ∃ y2, y2 = ys.drop (ys.length / 2) := ⟨_, rfl⟩
  have hs : ys = y1 ++ y2 := by rw [hy1, hy2, List.take_append_drop]
  have hl2 : y2.length = m - m / 2 := by rw [hy2, List.length_drop, hy]
  have hl1 : y1.length = m / 2 := by rw [hy1, List.length_take, hy]; omega
  rw [← hy1, ← hy2, hs, mle_append]
  unfold commitVec
  rw [zero_smul, add_zero, Bp.msm_eq_sum _ _ (2 ^ y1.length) (by rw [evalEq_length]), map_sum, ← Finset.sum_neg_distrib]
  refine Finset.sum_congr rfl fun i hi => ?_
  have hi := Finset.mem_range.1 hi
  rw [map_smul, evalEq_getD _ _ hi, balance_apply, smul_eq_mul]
  have e : φ 0 (com.getD i 0) = ∑ j ∈ Finset.range (2 ^ y2.length), eqWeight y2 j * φ 0 (com.getD i 0) := by
    rw [← Finset.sum_mul, Gkr.eqWeight_sum, one_mul]
  rw [e, ← Finset.sum_sub_distrib, Finset.mul_sum, ← Finset.sum_neg_distrib]
  refine Finset.sum_congr rfl fun j hj => ?_
  have hj := Finset.mem_range.1 hj
  have hlt : i * 2 ^ y2.length + j < 2 ^ m := by
    have : 2 ^ m = 2 ^ y1.length * 2 ^ y2.length := by rw [← pow_add]; congr 1; omega
    rw [this]
    calc i * 2 ^ y2.length + j < (i + 1) * 2 ^ y2.length := by rw [Nat.succ_mul]; omega
      _ ≤ _ := Nat.mul_le_mul_right _ hi
  unfold wit
  rw [getD_map_range _ _ hlt, ← hl2]
  have hd : (i * 2 ^ y2.length + j) / 2 ^ y2.length = i := by
    rw [Nat.mul_comm, Nat.mul_add_div (by positivity), Nat.div_eq_of_lt hj, add_zero]
  have hm : (i * 2 ^ y2.length + j) % 2 ^ y2.length = j := by
    rw [Nat.mul_comm, Nat.mul_add_mod, Nat.mod_eq_of_lt hj]
  rw [hd, hm]
  ring

end Zkp.Spartan
