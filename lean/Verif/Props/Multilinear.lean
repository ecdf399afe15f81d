/- C45, C46: the multilinear helpers of Spartan, Libra and Hyrax. -/
import Verif.Proof.Multilinear
import Verif.Proof.F17

namespace Zkp.Ml

set_option linter.unusedSectionVars false
set_option linter.unusedSimpArgs false

variable {F : Type} [Field F]

/-! ### C46 -/

/-- The specification `mle` is the multilinear extension: it has the table's value at every Boolean
point … -/
theorem C46_spec_interpolates (v : List F) (n i : Nat) (hi : i < 2 ^ n) :
    mle v (bitsOf n i) = v.getD i 0 := by
  unfold mle
  have hl : (bitsOf n i : List F).length = n := by simp [bitsOf]
  rw [hl, Finset.sum_eq_single_of_mem i (Finset.mem_range.2 hi)]
  · rw [eqWeight_bits n i i hi hi]; simp
  · intro k hk hne
    rw [eqWeight_bits n i k hi (Finset.mem_range.1 hk), if_neg hne, mul_zero]

/-- … and is affine in every coordinate. -/
theorem C46_spec_affine (v p q : List F) (a : F) :
    mle v (p ++ a :: q) = (1 - a) * mle v (p ++ 0 :: q) + a * mle v (p ++ 1 :: q) := by
  induction p generalizing v with
  | nil => simp only [List.nil_append]; rw [mle_cons, mle_cons v 0, mle_cons v 1]; ring
  | cons b p ih =>
    simp only [List.cons_append]
    rw [mle_cons, mle_cons v b (p ++ 0 :: q), mle_cons v b (p ++ 1 :: q)]
    have h : ∀ x : F, (p ++ x :: q).length = (p ++ a :: q).length := by simp
    rw [h 0, h 1, ih, ih (v.drop _)]; ring

/-- `eval_eq` returns the weights of all positions, in order. -/
theorem C46_evalEq (r : List F) : evalEq r = (List.range (2 ^ r.length)).map (eqWeight r) := evalEq_eq r

/-- `eval_eq_x_y` is the equality polynomial, the extension of one point's weights at the other; it
panics exactly when the lengths differ. -/
theorem C46_evalEqXY (rx ry : List F) :
    evalEqXY rx ry = if rx.length = ry.length then
      some (mle ((List.range (2 ^ rx.length)).map (eqWeight rx)) ry) else none := by
  unfold evalEqXY
  by_cases h : rx.length = ry.length
  · rw [if_neg (by simp [h]), if_pos h, eqXY_sum rx ry h]
    unfold mle
    rw [← h]
    congr 1
    apply Finset.sum_congr rfl
    intro i hi
    rw [getD_map_range _ _ (Finset.mem_range.1 hi)]
  · rw [if_pos h, if_neg h]

/-- `eval_value` is the multilinear extension of the table, and panics exactly on a table that is too
long. -/
theorem C46_evalValue (v r : List F) :
    evalValue v r = if v.length ≤ 2 ^ r.length then some (mle v r) else none := by
  by_cases h : v.length ≤ 2 ^ r.length
  · rw [evalValue_eq v r h, if_pos h]
  · unfold evalValue; rw [if_neg (by rw [evalEq_length]; exact h), if_neg h]

/-- `combine_with_r` fixes the first variable. -/
theorem C46_combine (v r : List F) (a : F) (hv : v.length = 2 ^ (r.length + 1)) :
    ∃ w, combineWithR v a = some w ∧ w.length = 2 ^ r.length ∧ mle w r = mle v (a :: r) := by
  obtain ⟨w, hw, hl, h⟩ := combineWithR_some v r.length hv a
  exact ⟨w, hw, hl, mle_combine v w r a h⟩

/-- `bound_poly_var_bot` fixes the last variable. -/
theorem C46_bound (v r : List F) (a : F) (hv : v.length = 2 ^ (r.length + 1)) :
    ∃ w, boundPolyVarBot v a = some w ∧ w.length = 2 ^ r.length ∧ mle w r = mle v (r ++ [a]) := by
  obtain ⟨w, hw, hl, h⟩ := boundPolyVarBot_some v r.length hv a
  exact ⟨w, hw, hl, mle_bound v w r a h⟩

/-- All rows and variables of `m` fit a matrix with `2^nx` rows and `2^(ny+1)` columns. -/
def Fits (m : Rows F) (nx ny : Nat) : Prop :=
  m.length ≤ 2 ^ nx ∧ ∀ row ∈ m, ∀ t ∈ row, col (2 ^ ny) t.2 < 2 ^ (ny + 1)

theorem half_length (ry : List F) (ny : Nat) (h : ry.length = ny + 1) : (evalEq ry).length / 2 = 2 ^ ny := by
  rw [evalEq_length, h, pow_succ]; omega

/-- `evaluate_mle` is the multilinear extension of the matrix of summed coefficients at `(rx, ry)`. -/
theorem C46_evaluateMle (m : Rows F) (rx ry : List F) (ny : Nat) (hy : ry.length = ny + 1)
    (hf : Fits m rx.length ny) :
    evaluateMle m rx ry = some (∑ i ∈ Finset.range (2 ^ rx.length), ∑ c ∈ Finset.range (2 ^ ry.length),
      entry (col (2 ^ ny)) (m.getD i []) c * eqWeight rx i * eqWeight ry c) := by
  unfold evaluateMle
  simp only [half_length ry ny hy]
  rw [foldlM_some _ (fun sum x => sum + x.1.1 * eqWeight rx x.2 * eqWeight ry (col (2 ^ ny) x.1.2))]
  · rw [foldl_add_sum, zero_add]
    have h1 := flat_sum m (fun t i => t.1 * eqWeight rx i * eqWeight ry (col (2 ^ ny) t.2)) 0
    rw [h1]
    congr 1
    have h2 : ∀ i ∈ Finset.range (2 ^ rx.length),
        ((m.getD i []).map fun t => t.1 * eqWeight rx (i + 0) * eqWeight ry (col (2 ^ ny) t.2)).sum =
        ∑ c ∈ Finset.range (2 ^ ry.length),
          entry (col (2 ^ ny)) (m.getD i []) c * eqWeight rx i * eqWeight ry c := by
      intro i _
      have hb : ∀ t ∈ (m.getD i []).map fun t => (t.1, col (2 ^ ny) t.2), t.2 < 2 ^ ry.length := by
        intro t ht
        rw [List.mem_map] at ht
        obtain ⟨t', ht', rfl⟩ := ht
        rw [hy]
        by_cases hi : i < m.length
        · rw [List.getD_eq_getElem _ _ hi] at ht'
          exact hf.2 _ (List.getElem_mem hi) _ ht'
        · rw [List.getD_eq_default _ _ (by omega)] at ht'; simp at ht'
      have := sum_indicator _ (2 ^ ry.length) (fun c => eqWeight rx i * eqWeight ry c) hb
      rw [List.map_map] at this
      simp only [Function.comp_def, ← mul_assoc] at this
      rw [show i + 0 = i from rfl, this]
      apply Finset.sum_congr rfl
      intro c _
      unfold entry
      rw [List.filter_map, List.map_map]
      rfl
    rw [← Finset.sum_congr rfl h2]
    apply Finset.sum_subset
    · intro i hi; rw [Finset.mem_range] at *; exact lt_of_lt_of_le hi hf.1
    · intro i _ hi
      rw [Finset.mem_range] at hi
      rw [List.getD_eq_default _ _ (by omega)]; simp
  · rintro ⟨t, i⟩ hx b
    rw [List.mem_flatMap] at hx
    obtain ⟨⟨row, j⟩, hr, ht⟩ := hx
    simp only [List.mem_map, Prod.mk.injEq] at ht
    obtain ⟨t', ht', rfl, rfl⟩ := ht
    have hm := List.mem_zipIdx hr
    have hrow : row ∈ m := by
      have := hm.2.2; simp at this; rw [this]; exact List.getElem_mem _
    have hj : j < 2 ^ rx.length := lt_of_lt_of_le (by have := hm.2.1; simpa using this) hf.1
    simp only
    rw [evalEq_getElem? ry _ (by rw [hy]; exact hf.2 row hrow t' ht'), evalEq_getElem? rx _ hj]
    simp only [Option.bind_eq_bind, Option.bind_some]
    congr 2; ring

/-- Three variables over the field with 17 elements: the helpers on a concrete table and matrix. -/
example : ∃ w, combineWithR ([1, 2, 3, 4, 5, 6, 7, 8] : List F17) 5 = some w ∧ w.length = 2 ^ [(2 : F17), 3].length ∧
    mle w [2, 3] = mle [1, 2, 3, 4, 5, 6, 7, 8] [5, 2, 3] :=
  C46_combine _ [2, 3] 5 rfl

example : ∃ w, boundPolyVarBot ([1, 2, 3, 4, 5, 6, 7, 8] : List F17) 5 = some w ∧
    w.length = 2 ^ [(2 : F17), 3].length ∧ mle w [2, 3] = mle [1, 2, 3, 4, 5, 6, 7, 8] [2, 3, 5] :=
  C46_bound _ [2, 3] 5 rfl

example : mle ([1, 2, 3, 4] : List F17) (bitsOf 2 2) = 3 := C46_spec_interpolates _ 2 2 (by decide)

example : Fits ([[(3, .aux 0), (2, .input 1)], [(5, .aux 1), (6, .aux 1)]] : Rows F17) [(2 : F17)].length 1 := by
  refine ⟨by decide, ?_⟩
  intro row hrow t ht
  simp only [List.mem_cons, List.not_mem_nil, or_false] at hrow
  rcases hrow with rfl | rfl <;> simp only [List.mem_cons, List.not_mem_nil, or_false] at ht <;>
    rcases ht with rfl | rfl <;> decide

/-! ### C45 -/

/-- What `sparse_evaluate_value` computes: the extension of the vector with its zeros squeezed out. -/
theorem C45_actual [DecidableEq F] (v r : List F) (h : v.length ≤ 2 ^ r.length) :
    sparseEvaluateValue v r = mle (v.filter fun x => x ≠ 0) r := by
  have key : ∀ (l : List F) (k : Nat), ((l.zipIdx k).map fun x => bitWeight r x.2 * x.1).sum =
      ∑ i ∈ Finset.range l.length, l.getD i 0 * eqWeight r (i + k) := by
    intro l
    induction l with
    | nil => simp
    | cons x l ih =>
      intro k
      rw [List.zipIdx_cons, List.map_cons, List.sum_cons, ih, List.length_cons, Finset.sum_range_succ',
        add_comm, bitWeight_eq]
      simp only [List.getD_cons_succ, List.getD_cons_zero, zero_add, mul_comm x]
      congr 1
      apply Finset.sum_congr rfl
      intro i _
      rw [show i + 1 + k = i + (k + 1) by ring]
  unfold sparseEvaluateValue mle
  rw [key _ 0]
  have hle := le_trans (List.length_filter_le (fun x : F => decide (x ≠ 0)) v) h
  apply Finset.sum_subset
  · intro i hi; rw [Finset.mem_range] at *; exact lt_of_lt_of_le hi hle
  · intro i _ hi
    rw [Finset.mem_range, not_lt] at hi
    rw [List.getD_eq_default _ _ hi, zero_mul]

/-- The evaluation is right when no zero stands before a nonzero value, i.e. for public inputs without
zeros (followed by the padding).

Partial: the full claim `∀ v r, v.length ≤ 2 ^ r.length → sparseEvaluateValue v r = mle v r` is false
(`C45_violated`). -/
theorem C45_partial [DecidableEq F] (nz : List F) (k : Nat) (r : List F) (hnz : ∀ x ∈ nz, x ≠ 0)
    (h : nz.length + k ≤ 2 ^ r.length) :
    sparseEvaluateValue (nz ++ List.replicate k 0) r = mle (nz ++ List.replicate k 0) r := by
  rw [C45_actual _ _ (by simpa using h), List.filter_append]
  have h1 : (nz.filter fun x => x ≠ 0) = nz := List.filter_eq_self.2 (by simpa using hnz)
  have h2 : ((List.replicate k (0 : F)).filter fun x => x ≠ 0) = [] := by
    rw [List.filter_eq_nil_iff]
    intro x hx
    rw [List.mem_replicate] at hx; simp [hx.2]
  rw [h1, h2, List.append_nil]
  apply mle_congr
  intro i _
  by_cases hi : i < nz.length
  · rw [List.getD_append _ _ _ _ hi]
  · rw [List.getD_eq_default _ _ (by omega), List.getD_append_right _ _ _ _ (by omega)]
    by_cases hk : i - nz.length < k
    · rw [List.getD_eq_getElem _ _ (by simpa using hk)]; simp
    · rw [List.getD_eq_default _ _ (by simpa using hk)]

example : sparseEvaluateValue ([1, 4, 7] ++ List.replicate 1 (0 : F17)) [5, 6] = mle [1, 4, 7, 0] [5, 6] :=
  C45_partial _ _ _ (by decide) (by decide)

/-- No zero stands before a nonzero value. -/
def ZerosLast (l : List F) : Prop := ∃ nz k, l = nz ++ List.replicate k 0 ∧ ∀ x ∈ nz, x ≠ 0

theorem ZerosLast.of_ne {l : List F} (h : ∀ x ∈ l, x ≠ 0) : ZerosLast l := ⟨l, 0, by simp, h⟩

theorem ZerosLast.single [DecidableEq F] (z : F) : ZerosLast [z] := by
  by_cases h : z = 0
  · exact ⟨[], 1, by simp [h], by simp⟩
  · exact .of_ne (by simpa using h)

/-- The form in which the verifier uses it: the constant one, the public inputs, the padding. -/
theorem C45_inputs [DecidableEq F] (inputs : List F) (k : Nat) (r : List F) (hz : ZerosLast inputs)
    (h : inputs.length + 1 + k ≤ 2 ^ r.length) :
    sparseEvaluateValue (1 :: inputs ++ List.replicate k 0) r = mle (1 :: inputs ++ List.replicate k 0) r := by
  obtain ⟨nz, j, rfl, hnz⟩ := hz
  have e : (1 :: (nz ++ List.replicate j 0) ++ List.replicate k 0 : List F) = (1 :: nz) ++ List.replicate (j + k) 0 := by
    rw [List.replicate_add, List.cons_append, List.cons_append, List.append_assoc]
  rw [e]
  refine C45_partial (1 :: nz) (j + k) r ?_ ?_
  · intro x hx
    rcases List.mem_cons.1 hx with rfl | hx
    · exact one_ne_zero
    · exact hnz x hx
  · rw [List.length_append, List.length_replicate] at h
    rw [List.length_cons]
    omega

/-- Public inputs with a zero at the end. -/
example : ZerosLast ([5, 0] : List F17) ∧ sparseEvaluateValue ([1, 5, 0] ++ List.replicate 1 0 : List F17) [2, 3] =
    mle ([1, 5, 0] ++ List.replicate 1 0) [2, 3] :=
  have h : ZerosLast ([5, 0] : List F17) := ⟨[5], 1, rfl, by decide⟩
  ⟨h, C45_inputs [5, 0] 1 [2, 3] h (by decide)⟩

/-- The condition is exact: when a zero stands before a nonzero value, the verifier's value differs from
the multilinear extension at some point (already at a Boolean one). -/
theorem C45_exact [DecidableEq F] (v : List F) (n : Nat) (h : v.length ≤ 2 ^ n) :
    (∀ r : List F, r.length = n → sparseEvaluateValue v r = mle v r) ↔ ZerosLast v := by
  constructor
  · intro hr
    have hl : ∀ i, (bitsOf n i : List F).length = n := fun i => by simp [bitsOf]
    have hle : (v.filter fun x => x ≠ 0).length ≤ v.length := List.length_filter_le _ _
    have hg : ∀ i < v.length, v.getD i 0 = (v.filter fun x => x ≠ 0).getD i 0 := by
      intro i hi
      have e := hr (bitsOf n i) (hl i)
      rw [C45_actual v _ (by rw [hl i]; exact h), C46_spec_interpolates _ n i (by omega),
        C46_spec_interpolates _ n i (by omega)] at e
      exact e.symm
    refine ⟨v.filter fun x => x ≠ 0, v.length - (v.filter fun x => x ≠ 0).length, ?_, ?_⟩
    · refine List.ext_getElem (by simp only [List.length_append, List.length_replicate]; omega) ?_
      intro i h1 h2
      have e := hg i h1
      rw [List.getD_eq_getElem _ _ h1] at e
      rw [e, List.getElem_append]
      split
      · next h3 => rw [List.getD_eq_getElem _ _ h3]
      · next h3 => rw [List.getD_eq_default _ _ (by omega), List.getElem_replicate]
    · intro x hx
      simpa using (List.mem_filter.1 hx).2
  · rintro ⟨nz, k, rfl, hnz⟩ r hr
    exact C45_partial nz k r hnz (by rw [hr]; simpa using h)

example : ¬ ∀ r : List F17, r.length = 2 → sparseEvaluateValue [1, 0, 5] r = mle [1, 0, 5] r := by
  rw [C45_exact [1, 0, 5] 2 (by decide)]
  rintro ⟨nz, k, h, hnz⟩
  rcases nz with _ | ⟨a, _ | ⟨b, _ | ⟨c, _ | ⟨d, nz⟩⟩⟩⟩
  · rcases k with _ | k <;> simp [List.replicate_succ] at h
  · rcases k with _ | _ | _ | k <;> simp [List.replicate_succ] at h
    exact absurd h.2 (by decide)
  · simp only [List.cons_append, List.cons.injEq] at h
    exact hnz b (by simp) h.2.1.symm
  · simp only [List.cons_append, List.cons.injEq] at h
    exact hnz b (by simp) h.2.1.symm
  · simp at h

/-- C45 fails: for the public inputs `(0, 5)` the verifier's value at the point `(2, 3)` is not the
multilinear extension of `(1, 0, 5, 0)`. -/
theorem C45_violated : ∃ (v r : List F17), v.length ≤ 2 ^ r.length ∧ v.head? = some 1 ∧
    sparseEvaluateValue v r ≠ mle v r := by
  refine ⟨[1, 0, 5, 0], [2, 3], by decide, rfl, ?_⟩
  rw [C45_actual _ _ (by decide)]
  have h : (([1, 0, 5, 0] : List F17).filter fun x => x ≠ 0) = [1, 5] := by decide
  rw [h]
  unfold mle eqWeight
  decide

/-- Worse, different public inputs are indistinguishable: `(0, x)` and `(x, 0)` have the same input
polynomial at every point. -/
theorem C45_collision [DecidableEq F] (x : F) (r : List F) (h : 2 ≤ r.length) :
    sparseEvaluateValue [1, 0, x, 0] r = sparseEvaluateValue [1, x, 0, 0] r := by
  have h4 : 4 ≤ 2 ^ r.length := by
    calc 4 = 2 ^ 2 := by norm_num
      _ ≤ 2 ^ r.length := Nat.pow_le_pow_right (by norm_num) h
  rw [C45_actual _ _ (by simpa using h4), C45_actual _ _ (by simpa using h4)]
  by_cases hx : x = 0 <;> simp [hx]

example : sparseEvaluateValue ([1, 0, 5, 0] : List F17) [2, 3] = sparseEvaluateValue [1, 5, 0, 0] [2, 3] :=
  C45_collision 5 [2, 3] (by decide)

end Zkp.Ml
