/- The sum-check matrix of Hyrax. -/
import Verif.Model.Hyrax
import Verif.Props.Multilinear
import Verif.Props.SpartanNizk
import Verif.Proof.Layered
import Mathlib.Algebra.BigOperators.Fin
import Mathlib.Tactic.LinearCombination
import Mathlib.Tactic.IntervalCases
import Mathlib.Data.List.GetD

namespace Zkp.Hx

open Zkp.Ml Zkp.Spartan Zkp.Gkr Zkp.Cp

set_option linter.unusedSectionVars false
set_option linter.unusedSimpArgs false

variable {F : Type} [Field F] {G : Type} [AddCommGroup G] [Module F G] [DecidableEq F] [DecidableEq G]

/-- A row that is `vs` from column `c` on and zero elsewhere. -/
def cell (c : Nat) (vs : List F) (j : Nat) : F := if c ≤ j ∧ j < c + vs.length then vs.getD (j - c) 0 else 0

/-- The matrix with `vs` written into row `i` from column `j` on. -/
def put (m : Mat F) (i j : Nat) (vs : List F) : Mat F :=
  ⟨m.rows, m.cols, fun i' j' => if i' = i ∧ j ≤ j' ∧ j' < j + vs.length then vs.getD (j' - j) 0 else m.val i' j'⟩

theorem setRow_eq (m : Mat F) (i j : Nat) (vs : List F) (hi : i < m.rows) (hj : j + vs.length ≤ m.cols) :
    m.setRow i j vs = some (put m i j vs) := by
  have h : ∀ (vs : List F) (k : Nat) (m : Mat F), i < m.rows → j + k + vs.length ≤ m.cols →
      (vs.zipIdx k).foldlM (fun (m : Mat F) x => m.set i (j + x.2) x.1) m = some (put m i (j + k) vs) := by
    intro vs
    induction vs with
    | nil =>
      intro k m _ _
      simp only [List.zipIdx_nil, List.foldlM_nil, put, List.length_nil, add_zero]
      refine congrArg some ?_
      cases m
      simp only [Mat.mk.injEq, true_and]
      funext i' j'
      rw [if_neg (by omega)]
    | cons v vs ih =>
      intro k m h1 h2
      simp only [List.length_cons] at h2
      rw [List.zipIdx_cons, List.foldlM_cons]
      have hs : m.set i (j + k) v = some ⟨m.rows, m.cols, fun i' j' => if i' = i ∧ j' = j + k then v else m.val i' j'⟩ := by
        unfold Mat.set
        rw [if_pos ⟨h1, by omega⟩]
      simp only [hs, Option.bind_eq_bind, Option.bind_some]
      rw [ih (k + 1) ⟨m.rows, m.cols, fun i' j' => if i' = i ∧ j' = j + k then v else m.val i' j'⟩ h1
        (show j + (k + 1) + vs.length ≤ m.cols by omega)]
      simp only [put, Option.some.injEq, Mat.mk.injEq, true_and, List.length_cons]
      funext i' j'
      by_cases hi' : i' = i
      · by_cases hj' : j' = j + k
        · subst hj'
          rw [if_neg (by omega), if_pos ⟨hi', rfl⟩, if_pos (by omega)]
          simp
        · by_cases hr : j + k ≤ j' ∧ j' < j + k + (vs.length + 1)
          · rw [if_pos (by omega), if_pos (by omega)]
            have : j' - (j + k) = (j' - (j + (k + 1))) + 1 := by omega
            rw [this, List.getD_cons_succ]
          · rw [if_neg (by omega), if_neg (by omega), if_neg (by omega)]
      · simp [hi']
  exact h vs 0 m hi (by omega)

theorem fold_put (b : Nat) (col : Nat → Nat) (vals : Nat → List F) (step : Mat F → Nat → Option (Mat F)) (R C : Nat) :
    ∀ k (m : Mat F), m.rows = R → m.cols = C →
      (∀ i < k, ∀ m : Mat F, m.rows = R → m.cols = C → step m i = some (put m (b + i) (col i) (vals i))) →
      ∃ m' : Mat F, (List.range k).foldlM step m = some m' ∧ m'.rows = R ∧ m'.cols = C ∧
        ∀ i j, m'.val i j = if b ≤ i ∧ i < b + k then
          (if col (i - b) ≤ j ∧ j < col (i - b) + (vals (i - b)).length then (vals (i - b)).getD (j - col (i - b)) 0 else m.val i j)
          else m.val i j := by
  intro k
  induction k with
  | zero =>
    intro m h1 h2 _
    refine ⟨m, rfl, h1, h2, fun i j => ?_⟩
    rw [if_neg (by omega)]
  | succ k ih =>
    intro m h1 h2 hs
    obtain ⟨m', a1, a2, a3, a4⟩ := ih m h1 h2 fun i hi => hs i (by omega)
    refine ⟨put m' (b + k) (col k) (vals k), ?_, a2, a3, ?_⟩
    · rw [List.range_succ, List.foldlM_append, a1]
      simp only [Option.bind_eq_bind, Option.bind_some, List.foldlM_cons, List.foldlM_nil, hs k (by omega) m' a2 a3]
      rfl
    · intro i j
      show (if i = b + k ∧ _ then _ else _) = _
      rw [a4]
      by_cases hi : i = b + k
      · subst hi
        have e : b + k - b = k := by omega
        simp only [e, true_and]
        rw [if_neg (show ¬ (b ≤ b + k ∧ b + k < b + k) by omega), if_pos (show b ≤ b + k ∧ b + k < b + (k + 1) by omega)]
      · rw [if_neg (by tauto)]
        by_cases hr : b ≤ i ∧ i < b + k
        · rw [if_pos hr, if_pos (show b ≤ i ∧ i < b + (k + 1) by omega)]
        · rw [if_neg hr, if_neg (show ¬ (b ≤ i ∧ i < b + (k + 1)) by omega)]

theorem cell_sum (c n : Nat) (vs : List F) (v : Nat → F) (h : c + vs.length ≤ n) :
    ((List.range n).map fun k => cell c vs k * v k).sum = ((List.range vs.length).map fun t => vs.getD t 0 * v (c + t)).sum := by
  obtain ⟨d, rfl⟩ := Nat.exists_eq_add_of_le h
  rw [List.range_add, List.map_append, List.sum_append, List.range_add, List.map_append, List.sum_append]
  have h1 : ((List.range c).map fun k => cell c vs k * v k).sum = 0 := by
    apply List.sum_eq_zero
    simp only [List.mem_map, List.mem_range]
    rintro _ ⟨k, hk, rfl⟩
    rw [cell, if_neg (by omega), zero_mul]
  have h2 : (((List.range d).map (c + vs.length + ·)).map fun k => cell c vs k * v k).sum = 0 := by
    apply List.sum_eq_zero
    simp only [List.mem_map, List.mem_range]
    rintro _ ⟨_, ⟨k, hk, rfl⟩, rfl⟩
    rw [cell, if_neg (by omega), zero_mul]
  rw [h1, h2, add_zero, zero_add, List.map_map]
  congr 1
  apply List.map_congr_left
  intro t ht
  rw [List.mem_range] at ht
  show cell c vs (c + t) * v (c + t) = _
  rw [cell, if_pos (by omega)]
  congr 2
  omega

/-- A row of the matrix applied to a vector. -/
def rowDot (m : Mat F) (n r : Nat) (v : Nat → F) : F := ((List.range n).map fun k => m.val r k * v k).sum

theorem rowDot_cell (m : Mat F) (n r c : Nat) (vs : List F) (v : Nat → F) (h : c + vs.length ≤ n)
    (hm : ∀ k, m.val r k = cell c vs k) :
    rowDot m n r v = ((List.range vs.length).map fun t => vs.getD t 0 * v (c + t)).sum := by
  rw [← cell_sum c n vs v h]
  unfold rowDot
  simp only [hm]

theorem rowDot_cell2 (m : Mat F) (n r c d : Nat) (vs ws : List F) (v : Nat → F) (h : c + vs.length ≤ n)
    (h' : d + ws.length ≤ n) (hm : ∀ k, m.val r k = cell c vs k + cell d ws k) :
    rowDot m n r v = ((List.range vs.length).map fun t => vs.getD t 0 * v (c + t)).sum +
      ((List.range ws.length).map fun t => ws.getD t 0 * v (d + t)).sum := by
  rw [← cell_sum c n vs v h, ← cell_sum d n ws v h']
  unfold rowDot
  simp only [hm, add_mul]
  exact List.sum_map_add

/-! ### Wiring values -/

/-- One gate. -/
def gateStep (eval0 : F) (ql qr r0 r1 : List F) (u0 u1 : F) (acc : F × F) (g : Gate) : Option (F × F) := do
  let eval := eval0 * ((← (evalEq ql)[g.g]?) * u0 + (← (evalEq qr)[g.g]?) * u1)
  if g.op = 0 then
    some (acc.1 + (← (evalEq r0)[g.left]?) * (← (evalEq r1)[g.right]?) * eval, acc.2)
  else if g.op = 1 then
    some (acc.1, acc.2 + (← (evalEq r0)[g.left]?) * (← (evalEq r1)[g.right]?) * eval)
  else some acc

theorem gateEvals_def (eval0 : F) (ql qr r0 r1 : List F) (u0 u1 : F) (gates : List Gate) :
    gateEvals eval0 ql qr r0 r1 u0 u1 gates = gates.foldlM (gateStep eval0 ql qr r0 r1 u0 u1) (0, 0) := rfl

/-- The weight of a gate at the points of the layer. -/
def gateW (eval0 : F) (ql qr r0 r1 : List F) (u0 u1 : F) (t : Gate) : F :=
  eval0 * gWeight ql qr u0 u1 t.g * eqWeight r0 t.left * eqWeight r1 t.right

theorem gateEvals_eq (eval0 : F) (ql qr r0 r1 : List F) (u0 u1 : F) (gates : List Gate) (hq : ql.length = qr.length)
    (hr : r0.length = r1.length) (hok : GatesOk gates (2 ^ ql.length) (2 ^ r0.length)) :
    gateEvals eval0 ql qr r0 r1 u0 u1 gates =
      some (gateSum 0 gates (gateW eval0 ql qr r0 r1 u0 u1), gateSum 1 gates (gateW eval0 ql qr r0 r1 u0 u1)) := by
  have h : ∀ (gs : List Gate) (acc : F × F), GatesOk gs (2 ^ ql.length) (2 ^ r0.length) →
      gs.foldlM (gateStep eval0 ql qr r0 r1 u0 u1) acc =
      some (acc.1 + gateSum 0 gs (gateW eval0 ql qr r0 r1 u0 u1), acc.2 + gateSum 1 gs (gateW eval0 ql qr r0 r1 u0 u1)) := by
    intro gs
    induction gs with
    | nil => intro acc _; simp [gateSum]
    | cons t gs ih =>
      intro acc h
      obtain ⟨h1, h2, h3⟩ := h t (by simp)
      have hs : gateStep eval0 ql qr r0 r1 u0 u1 acc t = some
          (acc.1 + (if t.op = 0 then gateW eval0 ql qr r0 r1 u0 u1 t else 0),
           acc.2 + (if t.op = 1 then gateW eval0 ql qr r0 r1 u0 u1 t else 0)) := by
        unfold gateStep
        simp only [evalEq_getElem? ql t.g h1, evalEq_getElem? qr t.g (hq ▸ h1), evalEq_getElem? r0 t.left h2,
          evalEq_getElem? r1 t.right (hr ▸ h3), Option.bind_eq_bind, Option.bind_some]
        by_cases o0 : t.op = 0
        · simp only [o0, if_true, zero_ne_one, if_false, add_zero, gateW, gWeight]
          congr 2
          ring
        · by_cases o1 : t.op = 1
          · simp only [o1, one_ne_zero, if_true, if_false, add_zero, gateW, gWeight]
            congr 2
            ring
          · simp [o0, o1]
      rw [List.foldlM_cons, gateSum_cons, gateSum_cons, hs]
      simp only [Option.bind_eq_bind, Option.bind_some]
      rw [ih _ fun g hg => h g (List.mem_cons_of_mem _ hg)]
      simp only [add_assoc]
  have := h gates (0, 0) hok
  rw [gateEvals_def, this]
  simp

/-! ### The whole matrix -/

/-- The coefficients of the polynomial of round `t` within the vector of all coefficients: four in each of the
first `logN` rounds, three afterwards. -/
def coef (v : Nat → F) (logN t : Nat) : List F :=
  if t < logN then [v (4 * t), v (4 * t + 1), v (4 * t + 2), v (4 * t + 3)]
  else [v (logN + 3 * t), v (logN + 3 * t + 1), v (logN + 3 * t + 2)]

set_option maxHeartbeats 1600000 in
/-- The matrix of a layer, row by row. -/
theorem matrix_rows (rs r0 r1 qa ql qr : List F) (gates : List Gate) (u0 u1 : F) (logN logG : Nat) (hN : 1 ≤ logN)
    (hrs : rs.length = logN) (h0 : r0.length = logG) (h1 : r1.length = logG) (hqa : qa.length = logN)
    (hq : ql.length = qr.length) (hok : GatesOk gates (2 ^ ql.length) (2 ^ logG)) :
    ∃ (m : Mat F) (eval0 : F), constructMatrix rs r0 r1 qa ql qr gates u0 u1 logN logG = some m ∧
      evalEqXY qa rs = some eval0 ∧ m.rows = logN + 2 * logG + 1 ∧ m.cols = 4 * logN + 6 * logG + 3 ∧
      (∀ v : Nat → F, rowDot m (4 * logN + 6 * logG + 3) 0 v =
        polyEval (coef v logN 0) 0 + polyEval (coef v logN 0) 1) ∧
      (∀ (v : Nat → F) t, t + 1 < logN + 2 * logG → rowDot m (4 * logN + 6 * logG + 3) (t + 1) v =
        polyEval (coef v logN (t + 1)) 0 + polyEval (coef v logN (t + 1)) 1 -
          polyEval (coef v logN t) ((rs ++ r0 ++ r1).getD t 0)) ∧
      (∀ v : Nat → F, rowDot m (4 * logN + 6 * logG + 3) (logN + 2 * logG) v =
        gateSum 0 gates (gateW eval0 ql qr r0 r1 u0 u1) * (v (4 * logN + 6 * logG) + v (4 * logN + 6 * logG + 1)) +
        gateSum 1 gates (gateW eval0 ql qr r0 r1 u0 u1) * v (4 * logN + 6 * logG + 2) -
          polyEval (coef v logN (logN + 2 * logG - 1)) ((rs ++ r0 ++ r1).getD (logN + 2 * logG - 1) 0)) := by
  obtain ⟨eval0, he0⟩ : ∃ e, evalEqXY qa rs = some e := by
    unfold evalEqXY
    rw [if_neg (by simp [hqa, hrs])]
    exact ⟨_, rfl⟩
  have hge := gateEvals_eq eval0 ql qr r0 r1 u0 u1 gates hq (h0.trans h1.symm) (by rw [h0]; exact hok)
  obtain ⟨add, hadd⟩ : ∃ a, gateSum 0 gates (gateW eval0 ql qr r0 r1 u0 u1) = a := ⟨_, rfl⟩
  obtain ⟨mult, hmult⟩ : ∃ a, gateSum 1 gates (gateW eval0 ql qr r0 r1 u0 u1) = a := ⟨_, rfl⟩
  rw [hadd, hmult] at hge
  have key : ∃ m : Mat F, constructMatrix rs r0 r1 qa ql qr gates u0 u1 logN logG = some m ∧
      m.rows = logN + 2 * logG + 1 ∧ m.cols = 4 * logN + 6 * logG + 3 ∧
      ∀ i j, m.val i j = if i = logN + logG * 2 ∧ logN * 4 + logG * 6 ≤ j ∧ j < logN * 4 + logG * 6 + 3 then
          [add, add, mult].getD (j - (logN * 4 + logG * 6)) 0
        else if logN + 1 ≤ i ∧ i < logN + 1 + 2 * logG ∧ logN * 4 + (i - (logN + 1)) * 3 ≤ j ∧
            j < logN * 4 + (i - (logN + 1)) * 3 + 6 then
          (fun r : F => [-1, -1 * r, -1 * r * r, 2, 1, 1]) ((r0 ++ r1).getD (i - (logN + 1)) 0)
            |>.getD (j - (logN * 4 + (i - (logN + 1)) * 3)) 0
        else if i = logN ∧ (logN - 1) * 4 ≤ j ∧ j < (logN - 1) * 4 + 7 then
          (fun r : F => [-1, -1 * r, -1 * r * r, -1 * r * r * r, 2, 1, 1]) (rs.getD (logN - 1) 0)
            |>.getD (j - (logN - 1) * 4) 0
        else if 1 ≤ i ∧ i < logN ∧ (i - 1) * 4 ≤ j ∧ j < (i - 1) * 4 + 8 then
          (fun r : F => [-1, -1 * r, -1 * r * r, -1 * r * r * r, 2, 1, 1, 1]) (rs.getD (i - 1) 0)
            |>.getD (j - (i - 1) * 4) 0
        else if i = 0 ∧ j < 4 then [2, 1, 1, 1].getD j 0 else 0 := by
    unfold constructMatrix
    rw [if_neg (by omega)]
    have hrsi : ∀ i < logN, rs[i]? = some (rs.getD i 0) := fun i hi => getElem?_getD (by omega)
    have hri : ∀ i < 2 * logG, (r0 ++ r1)[i]? = some ((r0 ++ r1).getD i 0) := fun i hi =>
      getElem?_getD (by rw [List.length_append]; omega)
    simp only [hrsi (logN - 1) (by omega), he0, hge, Option.bind_eq_bind, Option.bind_some]
    rw [setRow_eq _ 0 0 _ (by simp only; omega) (by simp only [List.length_cons, List.length_nil]; omega), Option.bind_some]
    obtain ⟨m2, a1, a2, a3, a4⟩ := fold_put 1 (fun i => i * 4)
      (fun i => (fun r : F => [-1, -1 * r, -1 * r * r, -1 * r * r * r, 2, 1, 1, 1]) (rs.getD i 0))
      (fun m i => rs[i]?.bind fun r => m.setRow (i + 1) (i * 4) [-1, -1 * r, -1 * r * r, -1 * r * r * r, 2, 1, 1, 1])
      (logN + 2 * logG + 1) (4 * logN + 6 * logG + 3) (logN - 1)
      (put ⟨logN + 2 * logG + 1, 4 * logN + 6 * logG + 3, fun _ _ => 0⟩ 0 0 [2, 1, 1, 1]) rfl rfl
      (by
        intro i hi m c1 c2
        simp only [hrsi i (by omega), Option.bind_some]
        rw [setRow_eq _ _ _ _ (by omega) (by simp only [List.length_cons, List.length_nil]; omega), Nat.add_comm i 1])
    rw [a1, Option.bind_some, setRow_eq _ _ _ _ (by omega) (by simp only [List.length_cons, List.length_nil]; omega), Option.bind_some]
    obtain ⟨m4, b1, b2, b3, b4⟩ := fold_put (logN + 1) (fun i => logN * 4 + i * 3)
      (fun i => (fun r : F => [-1, -1 * r, -1 * r * r, 2, 1, 1]) ((r0 ++ r1).getD i 0))
      (fun m i => (r0 ++ r1)[i]?.bind fun r => m.setRow (logN + 1 + i) (logN * 4 + i * 3) [-1, -1 * r, -1 * r * r, 2, 1, 1])
      (logN + 2 * logG + 1) (4 * logN + 6 * logG + 3) (2 * logG)
      (put m2 logN ((logN - 1) * 4) ((fun r : F => [-1, -1 * r, -1 * r * r, -1 * r * r * r, 2, 1, 1]) (rs.getD (logN - 1) 0)))
      a2 a3
      (by
        intro i hi m c1 c2
        simp only [hri i (by omega), Option.bind_some]
        rw [setRow_eq _ _ _ _ (by omega) (by simp only [List.length_cons, List.length_nil]; omega)])
    rw [b1, Option.bind_some, setRow_eq _ _ _ _ (by omega) (by simp only [List.length_cons, List.length_nil]; omega)]
    refine ⟨_, rfl, b2, b3, fun i j => ?_⟩
    show (if _ then _ else m4.val i j) = _
    rw [b4]
    show (if _ then _ else if _ then (if _ then _ else if _ then _ else m2.val i j) else if _ then _ else m2.val i j) = _
    rw [a4]
    simp only [List.length_cons, List.length_nil, put]
    split_ifs <;> first | rfl | (exfalso; omega)
  obtain ⟨m, k1, k2, k3, k4⟩ := key
  have hr : ∀ i < logN, (rs ++ r0 ++ r1).getD i 0 = rs.getD i 0 := fun i hi => by
    rw [List.append_assoc, List.getD_append _ _ _ _ (by omega)]
  have hr' : ∀ i, (rs ++ r0 ++ r1).getD (logN + i) 0 = (r0 ++ r1).getD i 0 := fun i => by
    rw [List.append_assoc, List.getD_append_right _ _ _ _ (by omega)]; congr 1; omega
  refine ⟨m, eval0, k1, he0, k2, k3, fun v => ?_, fun v t ht => ?_, fun v => ?_⟩
  · rw [rowDot_cell m _ 0 0 [2, 1, 1, 1] v (by simp only [List.length_cons, List.length_nil]; omega)]
    · simp only [coef, if_pos (show 0 < logN by omega), polyEval, List.foldr, List.length_cons, List.length_nil, List.range_succ,
        List.range_zero, List.map_append, List.sum_append, List.map_cons, List.map_nil, List.sum_cons, List.sum_nil, List.nil_append,
        List.getD_cons_zero, List.getD_cons_succ, mul_zero, zero_add]
      ring
    · intro k
      rw [k4, cell, if_neg (by omega), if_neg (by omega), if_neg (by omega), if_neg (by omega)]
      by_cases c : k < 4
      · rw [if_pos (by omega), if_pos (by simp; omega)]; rfl
      · rw [if_neg (by omega), if_neg (by simp; omega)]
  · rcases lt_trichotomy (t + 1) logN with hlt | heq | hgt
    · rw [rowDot_cell m _ (t + 1) (t * 4) ((fun r : F => [-1, -1 * r, -1 * r * r, -1 * r * r * r, 2, 1, 1, 1]) (rs.getD t 0)) v
        (by simp only [List.length_cons, List.length_nil]; omega)]
      · simp only [coef, if_pos hlt, if_pos (show t < logN by omega), hr t (by omega), polyEval, List.foldr, List.length_cons, List.length_nil, List.range_succ,
          List.range_zero, List.map_append, List.sum_append, List.map_cons, List.map_nil, List.sum_cons, List.sum_nil, List.nil_append,
          List.getD_cons_zero, List.getD_cons_succ, mul_zero, zero_add]
        simp only [show ∀ x, t * 4 + x = 4 * t + x by intro x; omega, show 4 * (t + 1) = 4 * t + 4 by omega, add_zero, Nat.add_assoc,
          Nat.reduceAdd]
        ring
      · intro k
        rw [k4, cell, if_neg (by omega), if_neg (by omega), if_neg (by omega)]
        by_cases c : t * 4 ≤ k ∧ k < t * 4 + 8
        · rw [if_pos (by omega), if_pos (by simp only [List.length_cons, List.length_nil]; omega)]; rfl
        · rw [if_neg (by omega), if_neg (by omega), if_neg (by simp only [List.length_cons, List.length_nil]; omega)]
    · rw [rowDot_cell m _ (t + 1) (t * 4) ((fun r : F => [-1, -1 * r, -1 * r * r, -1 * r * r * r, 2, 1, 1]) (rs.getD t 0)) v
        (by simp only [List.length_cons, List.length_nil]; omega)]
      · simp only [coef, if_neg (show ¬ t + 1 < logN by omega), if_pos (show t < logN by omega), hr t (by omega), polyEval, List.foldr, List.length_cons, List.length_nil, List.range_succ,
          List.range_zero, List.map_append, List.sum_append, List.map_cons, List.map_nil, List.sum_cons, List.sum_nil, List.nil_append,
          List.getD_cons_zero, List.getD_cons_succ, mul_zero, zero_add]
        simp only [show ∀ x, t * 4 + x = 4 * t + x by intro x; omega, show logN + 3 * (t + 1) = 4 * t + 4 by omega, add_zero, Nat.add_assoc,
          Nat.reduceAdd]
        ring
      · intro k
        have ht1 : logN - 1 = t := by omega
        rw [k4, cell, if_neg (by omega), if_neg (by omega), ht1]
        by_cases c : t * 4 ≤ k ∧ k < t * 4 + 7
        · rw [if_pos (by omega), if_pos (by simp only [List.length_cons, List.length_nil]; omega)]
        · rw [if_neg (by omega), if_neg (by omega), if_neg (by omega), if_neg (by simp only [List.length_cons, List.length_nil]; omega)]
    · obtain ⟨u, rfl⟩ : ∃ u, t = logN + u := ⟨t - logN, by omega⟩
      rw [rowDot_cell m _ (logN + u + 1) (logN * 4 + u * 3) ((fun r : F => [-1, -1 * r, -1 * r * r, 2, 1, 1]) ((r0 ++ r1).getD u 0)) v
        (by simp only [List.length_cons, List.length_nil]; omega)]
      · simp only [coef, if_neg (show ¬ logN + u + 1 < logN by omega), if_neg (show ¬ logN + u < logN by omega), hr' u, polyEval, List.foldr, List.length_cons, List.length_nil, List.range_succ,
          List.range_zero, List.map_append, List.sum_append, List.map_cons, List.map_nil, List.sum_cons, List.sum_nil, List.nil_append,
          List.getD_cons_zero, List.getD_cons_succ, mul_zero, zero_add]
        simp only [show ∀ x, logN * 4 + u * 3 + x = logN + 3 * (logN + u) + x by intro x; omega,
          show logN + 3 * (logN + u + 1) = logN + 3 * (logN + u) + 3 by omega, add_zero, Nat.add_assoc, Nat.reduceAdd]
        ring
      · intro k
        have hu : logN + u + 1 - (logN + 1) = u := by omega
        rw [k4, cell, if_neg (by omega), hu]
        by_cases c : logN * 4 + u * 3 ≤ k ∧ k < logN * 4 + u * 3 + 6
        · rw [if_pos (by omega), if_pos (by simp only [List.length_cons, List.length_nil]; omega)]
        · rw [if_neg (by omega), if_neg (by omega), if_neg (by omega), if_neg (by omega), if_neg (by simp only [List.length_cons, List.length_nil]; omega)]
  · rw [hadd, hmult]
    rcases Nat.eq_zero_or_pos logG with rfl | hg
    · rw [rowDot_cell2 m _ (logN + 2 * 0) ((logN - 1) * 4) (logN * 4) ((fun r : F => [-1, -1 * r, -1 * r * r, -1 * r * r * r]) (rs.getD (logN - 1) 0))
        [add, add, mult] v (by simp only [List.length_cons, List.length_nil]; omega) (by simp only [List.length_cons, List.length_nil]; omega)]
      · simp only [coef, mul_zero, add_zero, if_pos (show logN - 1 < logN by omega), hr _ (show logN - 1 < logN by omega), polyEval, List.foldr, List.length_cons, List.length_nil, List.range_succ,
          List.range_zero, List.map_append, List.sum_append, List.map_cons, List.map_nil, List.sum_cons, List.sum_nil, List.nil_append,
          List.getD_cons_zero, List.getD_cons_succ, zero_add]
        simp only [show (logN - 1) * 4 = 4 * (logN - 1) by omega, show logN * 4 = 4 * logN by omega]
        ring
      · intro k
        rw [k4]
        unfold cell
        simp only [List.length_cons, List.length_nil]
        by_cases c1 : logN * 4 ≤ k ∧ k < logN * 4 + 3
        · rw [if_pos (show True ∧ logN * 4 + 0 * 6 ≤ k ∧ k < logN * 4 + 0 * 6 + 3 from ⟨trivial, by omega⟩),
            if_neg (show ¬ ((logN - 1) * 4 ≤ k ∧ k < (logN - 1) * 4 + (0 + 1 + 1 + 1 + 1)) by omega), if_pos (by omega), zero_add]
          simp
        · rw [if_neg (by omega), if_neg (by omega), if_neg (show ¬ (logN * 4 ≤ k ∧ k < logN * 4 + (0 + 1 + 1 + 1)) by omega), add_zero]
          by_cases c2 : (logN - 1) * 4 ≤ k ∧ k < (logN - 1) * 4 + 4
          · rw [if_pos (by omega), if_pos (by omega)]
            obtain ⟨d, rfl⟩ := Nat.exists_eq_add_of_le c2.1
            have hd : d < 4 := by omega
            rw [Nat.add_sub_cancel_left]
            interval_cases d <;> rfl
          · rw [if_neg (by omega), if_neg (by omega), if_neg (by omega), if_neg (by omega)]
    · rw [rowDot_cell2 m _ (logN + 2 * logG) (logN * 4 + (2 * logG - 1) * 3) (logN * 4 + logG * 6)
        ((fun r : F => [-1, -1 * r, -1 * r * r]) ((r0 ++ r1).getD (2 * logG - 1) 0))
        [add, add, mult] v (by simp only [List.length_cons, List.length_nil]; omega) (by simp only [List.length_cons, List.length_nil]; omega)]
      · have hx : logN + 2 * logG - 1 = logN + (2 * logG - 1) := by omega
        rw [hx, hr']
        simp only [coef, if_neg (show ¬ logN + (2 * logG - 1) < logN by omega), polyEval, List.foldr, List.length_cons, List.length_nil, List.range_succ,
          List.range_zero, List.map_append, List.sum_append, List.map_cons, List.map_nil, List.sum_cons, List.sum_nil, List.nil_append,
          List.getD_cons_zero, List.getD_cons_succ, zero_add, mul_zero, add_zero]
        simp only [show logN + 3 * (logN + (2 * logG - 1)) = logN * 4 + (2 * logG - 1) * 3 by omega,
          show 4 * logN + 6 * logG = logN * 4 + logG * 6 by omega]
        ring
      · intro k
        rw [k4]
        unfold cell
        have hu : logN + 2 * logG - (logN + 1) = 2 * logG - 1 := by omega
        simp only [List.length_cons, List.length_nil, hu]
        by_cases c1 : logN * 4 + logG * 6 ≤ k ∧ k < logN * 4 + logG * 6 + 3
        · rw [if_pos (by omega), if_neg (by omega), if_pos (by omega), zero_add]
        · rw [if_neg (by omega), if_neg (show ¬ (logN * 4 + logG * 6 ≤ k ∧ k < logN * 4 + logG * 6 + (0 + 1 + 1 + 1)) by omega), add_zero]
          by_cases c2 : logN * 4 + (2 * logG - 1) * 3 ≤ k ∧ k < logN * 4 + (2 * logG - 1) * 3 + 3
          · rw [if_pos (by omega), if_pos (by omega)]
            obtain ⟨d, rfl⟩ := Nat.exists_eq_add_of_le c2.1
            have hd : d < 3 := by omega
            rw [Nat.add_sub_cancel_left]
            interval_cases d <;> rfl
          · rw [if_neg (by omega), if_neg (by omega), if_neg (by omega), if_neg (by omega), if_neg (by omega)]

end Zkp.Hx
