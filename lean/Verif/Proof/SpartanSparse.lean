/- Spartan's sparse matrices: the sum over the list of entries is the evaluation of the matrix. -/
import Verif.Proof.SpartanSnarkRun

namespace Zkp.Spartan

open Zkp.Ml Zkp.Sc Zkp.Cp

set_option linter.unusedSectionVars false
set_option linter.unusedSimpArgs false

variable {F : Type} [Field F] {G : Type} [AddCommGroup G] [Module F G] [DecidableEq F] [DecidableEq G]

theorem list_sum_range {α : Type} (l : List α) (d : α) (f : α → F) :
    (l.map f).sum = ∑ i ∈ Finset.range l.length, f (l.getD i d) := by
  rw [← sum_range_map]
  congr 1
  apply List.ext_getElem (by simp)
  intro i h1 h2
  simp only [List.length_map] at h1
  simp only [List.getElem_map, List.getElem_range]
  rw [List.getD_eq_getElem _ _ h1]

theorem readVals_getD (mem : List F) (l : List Nat) (j : Nat) (h : j < l.length) :
    (readVals mem l).getD j 0 = mem.getD l[j] 0 := by
  rw [List.getD_eq_getElem _ _ (by simpa [readVals] using h)]
  simp [readVals]

/-- The padding adds nothing. -/
theorem padded_sum (M N : List F) (n : Nat) (V : List F) (R C : List Nat) (hR : R.length = V.length) (hC : C.length = V.length)
    (hn : V.length ≤ n) :
    sumDotp (readVals M (padWith n 0 R), readVals N (padWith n 0 C), padWith n 0 V) =
      ((V.zip (R.zip C)).map fun x => x.1 * (M.getD x.2.1 0 * N.getD x.2.2 0)).sum := by
  have hzl : (V.zip (R.zip C)).length = V.length := by simp [hR, hC]
  rw [list_sum_range _ ((0 : F), 0, 0), hzl]
  unfold sumDotp
  simp only []
  rw [sum_range_map]
  have hl : (readVals M (padWith n 0 R)).length = n := by
    unfold readVals; rw [List.length_map, padWith_length _ _ _ (by omega)]
  rw [hl]
  rw [← Finset.sum_subset (Finset.range_subset_range.2 hn)]
  · refine Finset.sum_congr rfl fun j hj => ?_
    have hj := Finset.mem_range.1 hj
    have e : ∀ {α : Type} (d : α) (l : List α) (hl : j < l.length) (h : j < (padWith n d l).length), (padWith n d l)[j] = l[j] := by
      intro α d l hl h
      simp only [padWith]
      rw [List.getElem_append_left hl]
    have hR' : j < (padWith n 0 R).length := by rw [padWith_length _ _ _ (by omega)]; omega
    have hC' : j < (padWith n 0 C).length := by rw [padWith_length _ _ _ (by omega)]; omega
    have hV' : j < (padWith n 0 V).length := by rw [padWith_length _ _ _ (by omega)]; omega
    rw [readVals_getD _ _ _ hR', readVals_getD _ _ _ hC', List.getD_eq_getElem _ _ hV', e 0 R (by omega) hR', e 0 C (by omega) hC',
      e 0 V hj hV', List.getD_eq_getElem (V.zip (R.zip C)) _ (by rw [hzl]; exact hj)]
    simp only [List.getElem_zip]
    ring
  · intro j _ hj
    have hj : V.length ≤ j := by simpa using hj
    have : (padWith n (0 : F) V).getD j 0 = 0 := by
      rw [List.getD_eq_getElem?_getD]
      simp only [padWith]
      rw [List.getElem?_append_right hj, List.getElem?_replicate]
      split_ifs <;> rfl
    rw [this, mul_zero]

theorem look_sum (m : List (Nat × F)) (N : Nat) (hN : ∀ e ∈ m, e.1 < N) (h : Nat → F) :
    (m.map fun e => e.2 * h e.1).sum = ∑ c ∈ Finset.range N, look m c * h c := by
  induction m with
  | nil => simp [look]
  | cons e m ih =>
    obtain ⟨k, v⟩ := e
    rw [List.map_cons, List.sum_cons, ih fun e he => hN e (by simp [he])]
    simp only [look_cons, add_mul, Finset.sum_add_distrib]
    congr 1
    rw [Finset.sum_eq_single k]
    · simp
    · intro c _ hc; rw [if_neg (Ne.symm hc), zero_mul]
    · intro hk; exact absurd (Finset.mem_range.2 (hN (k, v) (by simp))) hk

theorem rowMap_keys (w : Nat) (row : List (F × Index)) : ∀ e ∈ rowMap w row, ∃ t ∈ row, col w t.2 = e.1 := by
  have key : ∀ (row : List (F × Index)) (m : List (Nat × F)) (P : Nat → Prop), (∀ e ∈ m, P e.1) → (∀ t ∈ row, P (col w t.2)) →
      ∀ e ∈ row.foldl (fun m t => mapAdd (col w t.2) t.1 m) m, P e.1 := by
    intro row
    induction row with
    | nil => intro m P hm _ e he; exact hm e he
    | cons t row ih =>
      intro m P hm ht
      refine ih _ P ?_ fun t' h' => ht t' (by simp [h'])
      intro e he
      rcases mapAdd_keys _ _ _ e he with h | ⟨e', he', h⟩
      · rw [h]; exact ht t (by simp)
      · rw [← h]; exact hm e' he'
  exact key row [] (fun c => ∃ t ∈ row, col w t.2 = c) (by simp) (fun t ht => ⟨t, ht, rfl⟩)

theorem filter_sum (m : List (Nat × F)) (h : Nat → F) :
    (((m.filter fun e => e.2 ≠ 0)).map fun e => e.2 * h e.1).sum = (m.map fun e => e.2 * h e.1).sum := by
  induction m with
  | nil => rfl
  | cons e m ih =>
    by_cases he : e.2 = 0
    · rw [List.filter_cons_of_neg (by simpa using he), ih, List.map_cons, List.sum_cons, he, zero_mul, zero_add]
    · rw [List.filter_cons_of_pos (by simpa using he), List.map_cons, List.sum_cons, ih, List.map_cons, List.sum_cons]

/-- The sum over the entries is the sum over the matrix. -/
theorem entries_sum (m : Rows F) (nx ny : Nat) (hf : Fits m nx ny) (f g : Nat → F) :
    let sw := switchMatrixToList m (2 ^ ny)
    ((sw.1.zip (sw.2.1.zip sw.2.2)).map fun x => x.1 * (f x.2.1 * g x.2.2)).sum =
      ∑ i ∈ Finset.range (2 ^ nx), ∑ c ∈ Finset.range (2 ^ (ny + 1)), entry (col (2 ^ ny)) (m.getD i []) c * f i * g c := by
  simp only [switchMatrixToList]
  rw [List.zip_map', List.zip_map', List.map_map]
  have hrow : ∀ (row : List (F × Index)) (i : Nat), row ∈ m → (((rowMap (2 ^ ny) row).filter fun e => e.2 ≠ 0).map
      fun e => e.2 * (f i * g e.1)).sum = ∑ c ∈ Finset.range (2 ^ (ny + 1)), entry (col (2 ^ ny)) row c * f i * g c := by
    intro row i hrow
    rw [filter_sum (rowMap (2 ^ ny) row) fun c => f i * g c, look_sum (rowMap (2 ^ ny) row) (2 ^ (ny + 1)) ?_ fun c => f i * g c]
    · refine Finset.sum_congr rfl fun c _ => ?_
      rw [(rowMap_spec (2 ^ ny) row).2]; ring
    · intro e he
      obtain ⟨t, ht, h⟩ := rowMap_keys _ _ e he
      rw [← h]
      exact hf.2 row hrow t ht
  have hsum : ∀ (m' : Rows F) (k : Nat), (∀ r ∈ m', r ∈ m) → (((m'.zipIdx k).flatMap fun x =>
      ((rowMap (2 ^ ny) x.1).filter fun e => e.2 ≠ 0).map fun e => (e.2, x.2, e.1)).map
        fun x => x.1 * (f x.2.1 * g x.2.2)).sum = ∑ i ∈ Finset.range m'.length,
          ∑ c ∈ Finset.range (2 ^ (ny + 1)), entry (col (2 ^ ny)) (m'.getD i []) c * f (k + i) * g c := by
    intro m'
    induction m' with
    | nil => intro k _; simp
    | cons row m' ih =>
      intro k h
      rw [List.zipIdx_cons, List.flatMap_cons, List.map_append, List.sum_append, ih (k + 1) fun r hr => h r (by simp [hr]),
        List.map_map, List.length_cons, Finset.sum_range_succ']
      rw [show (fun x : F × Nat × Nat => x.1 * (f x.2.1 * g x.2.2)) ∘ (fun e : Nat × F => (e.2, k, e.1)) =
        fun e => e.2 * (f k * g e.1) from rfl, hrow row k (h row (by simp)), add_comm]
      congr 1
      refine Finset.sum_congr rfl fun i _ => ?_
      rw [List.getD_cons_succ, show k + 1 + i = k + (i + 1) by ring]
  have := hsum m 0 fun r hr => hr
  simp only [zero_add] at this
  refine Eq.trans ?_ (this.trans ?_)
  · rfl
  · apply Finset.sum_subset (Finset.range_subset_range.2 hf.1)
    intro i _ hi
    have hi : m.length ≤ i := by simpa using hi
    rw [List.getD_eq_default _ _ hi]
    simp [entry]

theorem eqWeight_zeros (z : Nat) (r : List F) (i : Nat) (hi : i < 2 ^ r.length) :
    eqWeight (List.replicate z 0 ++ r) i = eqWeight r i := by
  have h := eqWeight_append (List.replicate z (0 : F)) r 0 i hi
  rw [zero_mul, zero_add] at h
  rw [h]
  have : eqWeight (List.replicate z (0 : F)) 0 = 1 := by
    clear h
    induction z with
    | zero => simp [eqWeight_nil]
    | succ z ih =>
      have h := eqWeight_append [(0 : F)] (List.replicate z 0) 0 0 (by positivity)
      rw [zero_mul, zero_add] at h
      rw [List.replicate_succ, ← List.singleton_append, h, ih]
      simp [eqWeight]
  rw [this, one_mul]

/-- The dot product of the values read with the entries is the evaluation of the matrix. -/
theorem matrix_dotp (m : Rows F) (rx ry : List F) (ny n : Nat) (hy : ry.length = ny + 1) (hf : Fits m rx.length ny)
    (hn : (switchMatrixToList m (2 ^ ny)).2.1.length ≤ n) (v : F) (hv : evaluateMle m rx ry = some v) :
    sumDotp (readVals (evalEq (equalizeLength rx ry).1) (padWith n 0 (switchMatrixToList m (2 ^ ny)).2.1),
      readVals (evalEq (equalizeLength rx ry).2) (padWith n 0 (switchMatrixToList m (2 ^ ny)).2.2),
      padWith n 0 (switchMatrixToList m (2 ^ ny)).1) = v := by
  rw [C46_evaluateMle m rx ry ny hy hf] at hv
  rw [← Option.some.inj hv]
  have hidx := switch_index m _ _ hf
  obtain ⟨V, R, C, hsw⟩ : ∃ V R C, switchMatrixToList m (2 ^ ny) = (V, R, C) := ⟨_, _, _, rfl⟩
  obtain ⟨h1, h2, _, _, _⟩ := C48 m (2 ^ ny) _ _ _ hsw
  have hsum := entries_sum m _ _ hf (eqWeight rx) (eqWeight ry)
  simp only [hsw] at hsum hidx hn ⊢
  rw [padded_sum _ _ _ _ _ _ h1.symm (by rw [← h2, h1]) (by rw [h1]; exact hn), hy, ← hsum]
  congr 1
  apply List.map_congr_left
  intro x hx
  obtain ⟨_, hx2⟩ := List.of_mem_zip (show (x.1, x.2) ∈ _ from hx)
  obtain ⟨hx3, hx4⟩ := List.of_mem_zip (show (x.2.1, x.2.2) ∈ _ from hx2)
  have e1 := hidx.1 _ hx3
  have e2 := hidx.2 _ hx4
  rw [← hy] at e2
  have hle : ∀ (a b : List F) (i : Nat), i < 2 ^ a.length → i < 2 ^ (List.replicate (b.length - a.length) (0 : F) ++ a).length := by
    intro a b i hi
    refine lt_of_lt_of_le hi (Nat.pow_le_pow_right (by norm_num) (by simp))
  rw [equalizeLength]
  simp only []
  rw [evalEq_getD' _ _ (hle _ _ _ e1), evalEq_getD' _ _ (hle _ _ _ e2), eqWeight_zeros _ _ _ e1, eqWeight_zeros _ _ _ e2]

theorem half_sum (d : Dotp F) (n : Nat) (h1 : d.1.length = n) (h2 : d.2.1.length = n) (h3 : d.2.2.length = n) :
    sumDotp (halfDotp d).1 + sumDotp (halfDotp d).2 = sumDotp d := by
  unfold sumDotp halfDotp
  simp only [sum_range_map, List.length_take, List.length_drop, h1]
  rw [min_eq_left (Nat.div_le_self n 2), show n = n / 2 + (n - n / 2) by omega, Finset.sum_range_add,
    show n / 2 + (n - n / 2) = n by omega]
  congr 1
  · refine Finset.sum_congr rfl fun i hi => ?_
    have hi := Finset.mem_range.1 hi
    have : ∀ l : List F, l.length = n → (l.take (n / 2)).getD i 0 = l.getD i 0 := by
      intro l hl
      rw [List.getD_eq_getElem?_getD, List.getD_eq_getElem?_getD, List.getElem?_take_of_lt hi]
    rw [this _ h1, this _ h2, this _ h3]
  · refine Finset.sum_congr rfl fun i hi => ?_
    have : ∀ l : List F, (l.drop (n / 2)).getD i 0 = l.getD (n / 2 + i) 0 := by
      intro l
      rw [List.getD_eq_getElem?_getD, List.getD_eq_getElem?_getD, List.getElem?_drop]
    rw [this, this, this]

/-- The three evaluations are the dot products of the values at the encoded positions. -/
theorem encode_dotp (params : EvalsParams G) (s : Inst F) (hf : s.Fits) (enc : EncodeMemory F) (commit : EncodeCommit G)
    (tr0 tr0' : Transcript F G) (henc : encode params s tr0 = .ok ((enc, commit), tr0')) (rx ry : List F)
    (hx : rx.length = Nat.clog 2 s.numConstraints) (hy : ry.length = Nat.clog 2 s.t + 1) (a b c : F)
    (ha : evaluateMle s.a rx ry = some a) (hb : evaluateMle s.b rx ry = some b) (hc : evaluateMle s.c rx ry = some c) :
    [a, b, c] = ((enc.row.addrIndex.map (readVals (evalEq (equalizeLength rx ry).1))).zip
      ((enc.col.addrIndex.map (readVals (evalEq (equalizeLength rx ry).2))).zip enc.vals)).map sumDotp := by
  obtain ⟨-, _, _, hvals, hrowI, hcolI⟩ := encode_ok params s enc commit _ _ henc
  have hle : ∀ m : Rows F, m = s.a ∨ m = s.b ∨ m = s.c → (switchMatrixToList m s.t).2.1.length ≤ 2 ^ Nat.clog 2 s.entries := by
    intro m hm
    refine le_trans ?_ (Nat.le_pow_clog (by norm_num) _)
    unfold Inst.entries
    rcases hm with rfl | rfl | rfl <;> simp
  have hone : ∀ (m : Rows F) (v : F), (m = s.a ∨ m = s.b ∨ m = s.c) → Ml.Fits m (Nat.clog 2 s.numConstraints) (Nat.clog 2 s.t) →
      evaluateMle m rx ry = some v →
      sumDotp (readVals (evalEq (equalizeLength rx ry).1) (padWith (2 ^ Nat.clog 2 s.entries) 0 (switchMatrixToList m s.t).2.1),
        readVals (evalEq (equalizeLength rx ry).2) (padWith (2 ^ Nat.clog 2 s.entries) 0 (switchMatrixToList m s.t).2.2),
        padWith (2 ^ Nat.clog 2 s.entries) 0 (switchMatrixToList m s.t).1) = v := by
    intro m v hm hfm hv
    have := matrix_dotp m rx ry (Nat.clog 2 s.t) (2 ^ Nat.clog 2 s.entries) hy (by rw [hx]; exact hfm)
      (by rw [t_pow]; exact hle m hm) v hv
    rw [t_pow] at this
    exact this
  rw [hvals, hrowI, hcolI]
  simp only [List.map_cons, List.map_nil, List.zip_cons_cons, List.zip_nil_right]
  rw [hone s.a a (by simp) hf.1 ha, hone s.b b (by simp) hf.2.1 hb, hone s.c c (by simp) hf.2.2 hc]

end Zkp.Spartan
