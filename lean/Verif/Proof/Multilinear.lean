import Verif.Model.Multilinear
import Verif.Spec.Multilinear
import Mathlib.Data.List.GetD
import Mathlib.Tactic

namespace Zkp.Ml

set_option linter.unusedSectionVars false
set_option linter.unusedSimpArgs false

variable {F : Type} [Field F]

theorem eqWeight_nil (i : Nat) : eqWeight ([] : List F) i = 1 := by simp [eqWeight]

theorem eqWeight_cons (a : F) (r : List F) (i : Nat) :
    eqWeight (a :: r) i = (if i.testBit r.length then a else 1 - a) * eqWeight r i := by
  unfold eqWeight
  rw [List.length_cons, Finset.prod_range_succ', mul_comm]
  congr 1
  apply Finset.prod_congr rfl
  intro j hj
  rw [Finset.mem_range] at hj
  have h : r.length + 1 - 1 - (j + 1) = r.length - 1 - j := by omega
  rw [h]; simp

/-- Only the low bits of the position matter. -/
theorem eqWeight_add (r : List F) (k i : Nat) (hk : r.length ≤ k) :
    eqWeight r (2 ^ k + i) = eqWeight r i := by
  unfold eqWeight
  apply Finset.prod_congr rfl
  intro j hj
  rw [Finset.mem_range] at hj
  rw [Nat.testBit_two_pow_add_gt (by omega)]

theorem eqWeight_lo (a : F) (r : List F) (i : Nat) (hi : i < 2 ^ r.length) :
    eqWeight (a :: r) i = (1 - a) * eqWeight r i := by
  rw [eqWeight_cons, Nat.testBit_lt_two_pow hi]; simp

theorem eqWeight_hi (a : F) (r : List F) (i : Nat) (hi : i < 2 ^ r.length) :
    eqWeight (a :: r) (2 ^ r.length + i) = a * eqWeight r i := by
  rw [eqWeight_cons, Nat.testBit_two_pow_add_eq, Nat.testBit_lt_two_pow hi, eqWeight_add _ _ _ le_rfl]
  simp

theorem table_cons (a : F) (r : List F) :
    (List.range (2 ^ (r.length + 1))).map (eqWeight (a :: r)) =
      ((List.range (2 ^ r.length)).map fun i => (1 - a) * eqWeight r i) ++
      ((List.range (2 ^ r.length)).map fun i => a * eqWeight r i) := by
  have h2 : 2 ^ (r.length + 1) = 2 ^ r.length + 2 ^ r.length := by ring
  rw [h2, List.range_add, List.map_append]
  congr 1
  · apply List.map_congr_left
    intro i hi
    rw [List.mem_range] at hi
    exact eqWeight_lo a r i hi
  · rw [List.map_map]
    apply List.map_congr_left
    intro i hi
    rw [List.mem_range] at hi
    exact eqWeight_hi a r i hi

theorem evalEq_loop (r : List F) : ∀ N, 2 ^ r.length ≤ N →
    r.reverse.foldl evalEqStep (List.replicate N 1, 1) =
      ((List.range (2 ^ r.length)).map (eqWeight r) ++ List.replicate (N - 2 ^ r.length) 1,
        2 ^ r.length) := by
  induction r with
  | nil =>
    intro N hN
    have : N = (N - 1) + 1 := by simp at hN; omega
    simp only [List.reverse_nil, List.foldl_nil, List.length_nil, pow_zero, List.range_one,
      List.map_cons, List.map_nil, eqWeight_nil]
    rw [this]; simp [List.replicate_succ]
  | cons a r ih =>
    intro N hN
    rw [List.length_cons] at hN ⊢
    have h2 : 2 ^ (r.length + 1) = 2 * 2 ^ r.length := by ring
    rw [List.reverse_cons, List.foldl_append, ih N (by omega)]
    simp only [List.foldl_cons, List.foldl_nil, evalEqStep]
    have ht : ((List.range (2 ^ r.length)).map (eqWeight r) ++ List.replicate (N - 2 ^ r.length) (1 : F)).take
        (2 ^ r.length) = (List.range (2 ^ r.length)).map (eqWeight r) := by
      apply List.take_left'; simp
    have hd : ((List.range (2 ^ r.length)).map (eqWeight r) ++ List.replicate (N - 2 ^ r.length) (1 : F)).drop
        (2 * 2 ^ r.length) = List.replicate (N - 2 ^ (r.length + 1)) 1 := by
      rw [List.drop_append, List.drop_eq_nil_of_le (by simp)]
      simp only [List.length_map, List.length_range, List.nil_append, List.drop_replicate]
      congr 1; omega
    rw [ht, hd, table_cons, h2]
    simp [List.map_map, Function.comp_def]

theorem evalEq_eq (r : List F) : evalEq r = (List.range (2 ^ r.length)).map (eqWeight r) := by
  unfold evalEq
  rw [evalEq_loop r _ le_rfl]; simp

theorem evalEq_length (r : List F) : (evalEq r).length = 2 ^ r.length := by simp [evalEq_eq]

theorem evalEq_getElem? (r : List F) (i : Nat) (hi : i < 2 ^ r.length) :
    (evalEq r)[i]? = some (eqWeight r i) := by
  rw [evalEq_eq]; simp [hi]

/-! ### Multilinear extensions -/

theorem mle_nil (v : List F) : mle v [] = v.getD 0 0 := by simp [mle, eqWeight_nil]

theorem getD_take (v : List F) (n i : Nat) (h : i < n) : (v.take n).getD i 0 = v.getD i 0 := by
  simp [List.getD_eq_getElem?_getD, List.getElem?_take, h]

theorem getD_drop (v : List F) (n i : Nat) : (v.drop n).getD i 0 = v.getD (n + i) 0 := by
  simp [List.getD_eq_getElem?_getD, List.getElem?_drop]

theorem mle_cons (v : List F) (a : F) (r : List F) :
    mle v (a :: r) = (1 - a) * mle (v.take (2 ^ r.length)) r + a * mle (v.drop (2 ^ r.length)) r := by
  unfold mle
  have h2 : 2 ^ (r.length + 1) = 2 ^ r.length + 2 ^ r.length := by ring
  rw [List.length_cons, h2, Finset.sum_range_add, Finset.mul_sum, Finset.mul_sum]
  congr 1
  · apply Finset.sum_congr rfl
    intro i hi
    rw [Finset.mem_range] at hi
    rw [eqWeight_lo a r i hi, getD_take _ _ _ hi]; ring
  · apply Finset.sum_congr rfl
    intro i hi
    rw [Finset.mem_range] at hi
    rw [eqWeight_hi a r i hi, getD_drop]; ring

theorem eqWeight_concat (r : List F) (a : F) (i : Nat) :
    eqWeight (r ++ [a]) i = eqWeight r (i / 2) * (if i.testBit 0 then a else 1 - a) := by
  unfold eqWeight
  rw [List.length_append, List.length_singleton, Finset.prod_range_succ]
  congr 1
  · apply Finset.prod_congr rfl
    intro j hj
    rw [Finset.mem_range] at hj
    have h : r.length + 1 - 1 - j = (r.length - 1 - j) + 1 := by omega
    rw [h, Nat.testBit_succ, List.getD_append _ _ _ _ hj]
  · simp [List.getD_eq_getElem?_getD]

theorem mle_concat (v r : List F) (a : F) :
    mle v (r ++ [a]) = ∑ i ∈ Finset.range (2 ^ r.length),
      (a * v.getD (2 * i + 1) 0 + (1 - a) * v.getD (2 * i) 0) * eqWeight r i := by
  unfold mle
  rw [List.length_append, List.length_singleton]
  have h2 : 2 ^ (r.length + 1) = 2 ^ r.length * 2 := by ring
  rw [h2]
  have key : ∀ (n : Nat) (f : Nat → F), ∑ i ∈ Finset.range (n * 2), f i =
      ∑ i ∈ Finset.range n, (f (2 * i) + f (2 * i + 1)) := by
    intro n f
    induction n with
    | zero => simp
    | succ n ih =>
      rw [Nat.succ_mul, Finset.sum_range_succ _ (n * 2 + 1), Finset.sum_range_succ _ (n * 2), ih,
        Finset.sum_range_succ _ n, mul_comm n 2]; ring
  rw [key]
  apply Finset.sum_congr rfl
  intro i _
  rw [eqWeight_concat, eqWeight_concat]
  have h1 : 2 * i / 2 = i := by omega
  have h3 : (2 * i + 1) / 2 = i := by omega
  have t0 : (2 * i).testBit 0 = false := by simp [Nat.testBit_zero]
  have t1 : (2 * i + 1).testBit 0 = true := by simp [Nat.testBit_zero]
  rw [h1, h3, t0, t1]; simp; ring

theorem isPow2_iff (n : Nat) : isPow2 n = true ↔ ∃ k, n = 2 ^ k := by
  unfold isPow2
  rw [beq_iff_eq]
  constructor
  · intro h; exact ⟨_, h⟩
  · rintro ⟨k, rfl⟩; rw [Nat.log2_two_pow]

theorem getD_map_range {n : Nat} (f : Nat → F) (i : Nat) (hi : i < n) :
    ((List.range n).map f).getD i 0 = f i := by
  simp [List.getD_eq_getElem?_getD, hi]

theorem combineWithR_some (v : List F) (n : Nat) (hv : v.length = 2 ^ (n + 1)) (a : F) :
    ∃ w, combineWithR v a = some w ∧ w.length = 2 ^ n ∧
      ∀ i < 2 ^ n, w.getD i 0 = a * v.getD (i + 2 ^ n) 0 + (1 - a) * v.getD i 0 := by
  have hl : v.length / 2 = 2 ^ n := by rw [hv, pow_succ]; omega
  refine ⟨_, by unfold combineWithR; rw [hl, if_pos ((isPow2_iff _).2 ⟨n, rfl⟩)], by simp, ?_⟩
  intro i hi
  rw [getD_map_range _ _ hi]

theorem boundPolyVarBot_some (v : List F) (n : Nat) (hv : v.length = 2 ^ (n + 1)) (a : F) :
    ∃ w, boundPolyVarBot v a = some w ∧ w.length = 2 ^ n ∧
      ∀ i < 2 ^ n, w.getD i 0 = a * v.getD (2 * i + 1) 0 + (1 - a) * v.getD (2 * i) 0 := by
  have hl : v.length / 2 = 2 ^ n := by rw [hv, pow_succ]; omega
  refine ⟨_, by unfold boundPolyVarBot; rw [hl, if_pos ((isPow2_iff _).2 ⟨n, rfl⟩)], by simp, ?_⟩
  intro i hi
  rw [getD_map_range _ _ hi]

theorem mle_congr (v w r : List F) (h : ∀ i < 2 ^ r.length, v.getD i 0 = w.getD i 0) :
    mle v r = mle w r := by
  unfold mle
  apply Finset.sum_congr rfl
  intro i hi
  rw [h i (Finset.mem_range.1 hi)]

theorem mle_combine (v w r : List F) (a : F)
    (h : ∀ i < 2 ^ r.length, w.getD i 0 = a * v.getD (i + 2 ^ r.length) 0 + (1 - a) * v.getD i 0) :
    mle w r = mle v (a :: r) := by
  rw [mle_cons]
  unfold mle
  rw [Finset.mul_sum, Finset.mul_sum, ← Finset.sum_add_distrib]
  apply Finset.sum_congr rfl
  intro i hi
  rw [Finset.mem_range] at hi
  rw [h i hi, getD_take _ _ _ hi, getD_drop, add_comm (2 ^ r.length) i]; ring

theorem mle_bound (v w r : List F) (a : F)
    (h : ∀ i < 2 ^ r.length, w.getD i 0 = a * v.getD (2 * i + 1) 0 + (1 - a) * v.getD (2 * i) 0) :
    mle w r = mle v (r ++ [a]) := by
  rw [mle_concat]
  unfold mle
  apply Finset.sum_congr rfl
  intro i hi
  rw [h i (Finset.mem_range.1 hi)]

theorem sum_zipWith_range (f : Nat → F) (n : Nat) (v : List F) (hv : v.length ≤ n) :
    (List.zipWith (· * ·) v ((List.range n).map f)).sum = ∑ i ∈ Finset.range n, v.getD i 0 * f i := by
  induction v generalizing n f with
  | nil => simp
  | cons x v ih =>
    cases n with
    | zero => simp at hv
    | succ n =>
      rw [List.range_succ_eq_map, List.map_cons, List.map_map, List.zipWith_cons_cons, List.sum_cons,
        ih _ n (by simpa using hv), Finset.sum_range_succ', add_comm]
      simp

theorem evalValue_eq (v r : List F) (hv : v.length ≤ 2 ^ r.length) : evalValue v r = some (mle v r) := by
  unfold evalValue
  rw [if_pos (by rw [evalEq_length]; exact hv), evalEq_eq, sum_zipWith_range _ _ _ hv]
  rfl

theorem eqXY_sum (rx ry : List F) (h : rx.length = ry.length) :
    (List.zipWith (fun x y => (1 - x) * (1 - y) + x * y) rx ry).prod =
      ∑ i ∈ Finset.range (2 ^ rx.length), eqWeight rx i * eqWeight ry i := by
  induction rx generalizing ry with
  | nil =>
    cases ry with
    | nil => simp [eqWeight_nil]
    | cons => simp at h
  | cons x rx ih =>
    cases ry with
    | nil => simp at h
    | cons y ry =>
      have hl : rx.length = ry.length := by simpa using h
      have h2 : 2 ^ (rx.length + 1) = 2 ^ rx.length + 2 ^ rx.length := by ring
      rw [List.zipWith_cons_cons, List.prod_cons, ih ry hl, List.length_cons, h2,
        Finset.sum_range_add, add_mul, Finset.mul_sum, Finset.mul_sum]
      congr 1
      · apply Finset.sum_congr rfl
        intro i hi
        rw [Finset.mem_range] at hi
        rw [eqWeight_lo x rx i hi, eqWeight_lo y ry i (hl ▸ hi)]; ring
      · apply Finset.sum_congr rfl
        intro i hi
        rw [Finset.mem_range] at hi
        have := eqWeight_hi y ry i (hl ▸ hi)
        rw [← hl] at this
        rw [eqWeight_hi x rx i hi, this]; ring

/-- At a Boolean point the weight is one for that point and zero for every other. -/
theorem eqWeight_bits (n i k : Nat) (hi : i < 2 ^ n) (hk : k < 2 ^ n) :
    eqWeight (bitsOf n i : List F) k = if k = i then 1 else 0 := by
  unfold eqWeight
  have hl : (bitsOf n i : List F).length = n := by simp [bitsOf]
  have hg : ∀ j < n, (bitsOf n i : List F).getD j 0 = if i.testBit (n - 1 - j) then 1 else 0 := by
    intro j hj; rw [bitsOf, getD_map_range _ _ hj]
  rw [hl]
  by_cases h : k = i
  · rw [if_pos h, h]
    apply Finset.prod_eq_one
    intro j hj
    rw [hg j (Finset.mem_range.1 hj)]
    split <;> simp_all
  · rw [if_neg h]
    have : ∃ b, k.testBit b ≠ i.testBit b := by
      by_contra hc
      push Not at hc
      exact h (Nat.eq_of_testBit_eq hc)
    obtain ⟨b, hb⟩ := this
    have hbn : b < n := by
      by_contra hc
      have : 2 ^ n ≤ 2 ^ b := Nat.pow_le_pow_right (by norm_num) (by omega)
      rw [Nat.testBit_lt_two_pow (by omega), Nat.testBit_lt_two_pow (by omega)] at hb
      exact hb rfl
    apply Finset.prod_eq_zero (Finset.mem_range.2 (show n - 1 - b < n by omega))
    rw [hg _ (by omega)]
    have : n - 1 - (n - 1 - b) = b := by omega
    rw [this]
    cases hkb : k.testBit b <;> cases hib : i.testBit b <;> simp_all

theorem bitWeight_eq (r : List F) (i : Nat) : bitWeight r i = eqWeight r i := by
  unfold bitWeight eqWeight
  rw [Finset.prod_range]
  rw [← List.prod_ofFn]
  congr 1
  apply List.ext_getElem
  · simp
  · intro j h1 h2
    simp only [List.getElem_map, List.getElem_range, List.getElem_ofFn]
    have : r.length - j - 1 = r.length - 1 - j := by omega
    rw [this]

/-! ### Matrices -/

theorem foldlM_some {α β : Type} (f : β → α → Option β) (g : β → α → β) (l : List α)
    (h : ∀ x ∈ l, ∀ b, f b x = some (g b x)) (b : β) : l.foldlM f b = some (l.foldl g b) := by
  induction l generalizing b with
  | nil => rfl
  | cons x l ih =>
    rw [List.foldlM_cons, h x (by simp), List.foldl_cons]
    exact ih (fun y hy => h y (by simp [hy])) _

theorem foldl_add_sum {α : Type} (f : α → F) (l : List α) (b : F) :
    l.foldl (fun s x => s + f x) b = b + (l.map f).sum := by
  induction l generalizing b with
  | nil => simp
  | cons x l ih => rw [List.foldl_cons, ih]; simp; ring

theorem sum_indicator (l : List (F × Nat)) (N : Nat) (g : Nat → F) (h : ∀ t ∈ l, t.2 < N) :
    (l.map fun t => t.1 * g t.2).sum =
      ∑ c ∈ Finset.range N, ((l.filter fun t => t.2 = c).map fun t => t.1).sum * g c := by
  induction l with
  | nil => simp
  | cons t l ih =>
    rw [List.map_cons, List.sum_cons, ih (fun t ht => h t (by simp [ht]))]
    have : t.1 * g t.2 = ∑ c ∈ Finset.range N, (if t.2 = c then t.1 * g c else 0) := by
      rw [Finset.sum_ite_eq]; simp [h t (by simp)]
    rw [this, ← Finset.sum_add_distrib]
    apply Finset.sum_congr rfl
    intro c _
    by_cases hc : t.2 = c
    · simp [hc]; ring
    · simp [hc]

theorem flat_sum (m : Rows F) (f : (F × Index) → Nat → F) (k : Nat) :
    (((m.zipIdx k).flatMap fun (row, i) => row.map fun t => (t, i)).map fun x => f x.1 x.2).sum =
      ∑ i ∈ Finset.range m.length, ((m.getD i []).map fun t => f t (i + k)).sum := by
  induction m generalizing k with
  | nil => simp
  | cons row m ih =>
    rw [List.zipIdx_cons, List.flatMap_cons, List.map_append, List.sum_append, ih (k + 1),
      List.length_cons, Finset.sum_range_succ', add_comm]
    simp only [List.getD_cons_succ, List.getD_cons_zero, List.map_map, zero_add]
    congr 1
    apply Finset.sum_congr rfl
    intro i _
    rw [show i + 1 + k = i + (k + 1) by ring]

end Zkp.Ml
