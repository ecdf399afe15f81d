/- Proofs about the Groth16 model. -/
import Verif.Model.Groth16
import Verif.Proof.Domain
import Verif.Proof.Dot
import Verif.Proof.Field

set_option linter.unusedSectionVars false
set_option linter.unusedSimpArgs false

namespace Zkp.Groth16

open Polynomial

variable {F : Type} [Field F] [DecidableEq F]

/-! ### Rows -/

theorem dot_addAt (l z : List F) (k : Nat) (v : F) (hl : k < l.length) (hz : k < z.length) :
    dot (addAt l k v) z = dot l z + v * z.getD k 0 := by
  unfold addAt
  induction l generalizing z k with
  | nil => simp at hl
  | cons a l ih =>
    cases z with
    | nil => simp at hz
    | cons b z =>
      cases k with
      | zero => simp only [List.modify_zero_cons, dot_cons, List.getD_cons_zero]; ring
      | succ k =>
        simp only [List.modify_succ_cons, dot_cons, List.getD_cons_succ]
        rw [ih z k (by simpa using hl) (by simpa using hz)]; ring

@[simp] theorem addAt_length (l : List F) (k : Nat) (v : F) : (addAt l k v).length = l.length := by
  simp [addAt]

theorem full_getD (cs : CS F) (i : Index)
    (h : match i with | .input i => i < cs.inputs.length | .aux i => i < cs.aux.length) :
    (full cs).getD (pos cs.inputs.length i) 0 = cs.witness i ∧
      pos cs.inputs.length i < (full cs).length := by
  unfold full
  cases i with
  | input i =>
    have h : i < cs.inputs.length := h
    refine ⟨?_, by simp [pos]; omega⟩
    simp only [pos, CS.witness]
    rw [List.getD_append _ _ _ _ h]
  | aux i =>
    have h : i < cs.aux.length := h
    refine ⟨?_, by simp [pos, h]⟩
    simp only [pos, CS.witness]
    rw [List.getD_append_right _ _ _ _ (by omega)]
    congr 1; omega

/-- All indices of a combination are allocated. -/
def RowOk (cs : CS F) (l : LC F) : Prop := ∀ t ∈ l, match t.1 with
  | .input i => i < cs.inputs.length | .aux i => i < cs.aux.length

theorem inRange_iff (cs : CS F) : inRange cs = true ↔
    ∀ k ∈ cs.constraints, RowOk cs k.a ∧ RowOk cs k.b ∧ RowOk cs k.c := by
  unfold inRange RowOk
  simp only [List.all_eq_true, List.mem_append]
  constructor
  · intro h k hk
    refine ⟨?_, ?_, ?_⟩ <;> intro t ht
    all_goals
      have := h k hk t (by simp [ht])
      rcases t with ⟨i | i, c⟩ <;> simpa using this
  · intro h k hk t ht
    obtain ⟨h1, h2, h3⟩ := h k hk
    have : match t.1 with
      | .input i => i < cs.inputs.length | .aux i => i < cs.aux.length := by
      rcases ht with (ht | ht) | ht
      · exact h1 t ht
      · exact h2 t ht
      · exact h3 t ht
    rcases t with ⟨i | i, c⟩ <;> simpa using this

theorem evaluateConstraint_eq (cs : CS F) (l : LC F) (h : RowOk cs l) :
    evaluateConstraint l (full cs) cs.inputs.length = l.eval cs.witness := by
  unfold evaluateConstraint LC.eval
  have : ∀ (l : LC F) (acc : F), RowOk cs l → l.foldl (fun sum t =>
      if t.2 = 1 then sum + (full cs).getD (pos cs.inputs.length t.1) 0
      else sum + (full cs).getD (pos cs.inputs.length t.1) 0 * t.2) acc =
      acc + (l.map fun t => t.2 * cs.witness t.1).sum := by
    intro l
    induction l with
    | nil => intro acc _; simp
    | cons t l ih =>
      intro acc h
      rw [List.foldl_cons, ih _ (fun x hx => h x (List.mem_cons_of_mem _ hx)),
        List.map_cons, List.sum_cons, (full_getD cs t.1 (h t List.mem_cons_self)).1]
      split
      · rename_i h1; rw [h1]; ring
      · ring
  rw [this l 0 h, zero_add]

theorem dot_addRow (cs : CS F) (acc : List F) (l : LC F) (u : F) (h : RowOk cs l)
    (ha : acc.length = (full cs).length) :
    (addRow cs.inputs.length acc (l, u)).length = acc.length ∧
    dot (addRow cs.inputs.length acc (l, u)) (full cs) =
      dot acc (full cs) + u * l.eval cs.witness := by
  unfold addRow LC.eval
  induction l generalizing acc with
  | nil => simp
  | cons t l ih =>
    have ht := full_getD cs t.1 (h t List.mem_cons_self)
    obtain ⟨h1, h2⟩ := ih (addAt acc (pos cs.inputs.length t.1) (u * t.2))
      (fun x hx => h x (List.mem_cons_of_mem _ hx)) (by simpa using ha)
    refine ⟨by simpa using h1, ?_⟩
    simp only [List.foldl_cons, List.map_cons, List.sum_cons] at h2 ⊢
    rw [h2, dot_addAt _ _ _ _ (by rw [ha]; exact ht.2) ht.2, ht.1]; ring

theorem dot_addRows (cs : CS F) (acc : List F) (rows : List (LC F)) (u : List F)
    (h : ∀ r ∈ rows, RowOk cs r) (ha : acc.length = (full cs).length) :
    (addRows cs.inputs.length acc rows u).length = acc.length ∧
    dot (addRows cs.inputs.length acc rows u) (full cs) =
      dot acc (full cs) + dot (rows.map fun l => l.eval cs.witness) u := by
  unfold addRows
  induction rows generalizing acc u with
  | nil => simp
  | cons r rows ih =>
    cases u with
    | nil => simp
    | cons x u =>
      obtain ⟨e1, e2⟩ := dot_addRow cs acc r x (h r List.mem_cons_self) ha
      obtain ⟨i1, i2⟩ := ih (addRow cs.inputs.length acc (r, x)) u
        (fun y hy => h y (List.mem_cons_of_mem _ hy)) (by rw [e1, ha])
      simp only [List.zip_cons_cons, List.foldl_cons, List.map_cons, dot_cons]
      exact ⟨by rw [i1, e1], by rw [i2, e2]; ring⟩

theorem evals_getD (D : Domain F) (f : Nat → F) {i : Nat} (hi : i < D.size) :
    ((List.range D.size).map f).getD i 0 = f i := by
  rw [List.getD_eq_getElem _ _ (by simpa using hi)]; simp

theorem map_getD_row (cs : CS F) (f : R1C F → LC F) (h : ∀ k ∈ cs.constraints, RowOk cs (f k))
    {i : Nat} (hi : i < cs.constraints.length) :
    evaluateConstraint ((cs.constraints.map f).getD i []) (full cs) cs.inputs.length =
      ((cs.constraints.map fun k => (f k).eval cs.witness)).getD i 0 := by
  rw [List.getD_eq_getElem _ _ (by simpa using hi), List.getD_eq_getElem _ _ (by simpa using hi)]
  simp only [List.getElem_map]
  exact evaluateConstraint_eq cs _ (h _ (List.getElem_mem _))

/-- A matrix with `nc` rows padded by zeros: interpolating its row values and evaluating at `t` is the
dot product with the Lagrange coefficients. -/
theorem rows_sum (D : Domain F) (nc : Nat) (hn : nc ≤ D.size) (rows : List F) (hr : rows.length = nc)
    (t : F) :
    ∑ i ∈ Finset.range D.size, (if i < nc then rows.getD i 0 else 0) * (D.lagrange t).getD i 0 =
      dot rows (D.lagrange t) := by
  rw [dot_eq_sum _ _ (by simp [hr, hn]), hr]
  rw [← Finset.sum_subset (Finset.range_subset_range.mpr hn)]
  · apply Finset.sum_congr rfl
    intro i hi
    rw [if_pos (Finset.mem_range.mp hi)]
  · intro i _ hi
    rw [if_neg (by simpa using hi), zero_mul]

section
variable {D : Domain F} {cs : CS F}

theorem evalsB_eval (hr : inRange cs = true) (hn : cs.constraints.length ≤ D.size) (t : F) :
    (polyOf (D.ifft (evalsB D cs))).eval t =
      dot (cs.constraints.map fun k => k.b.eval cs.witness) (D.lagrange t) := by
  rw [Domain.eval_ifft, ← rows_sum D _ hn _ (by simp)]
  apply Finset.sum_congr rfl
  intro i hi
  unfold evalsB
  rw [evals_getD D _ (Finset.mem_range.mp hi)]
  split
  · rename_i h
    rw [map_getD_row cs (·.b) (fun k hk => ((inRange_iff cs).mp hr k hk).2.1) h]
  · rfl

theorem evalsC_eval (hr : inRange cs = true) (hn : cs.constraints.length ≤ D.size) (t : F) :
    (polyOf (D.ifft (evalsC D cs))).eval t =
      dot (cs.constraints.map fun k => k.c.eval cs.witness) (D.lagrange t) := by
  rw [Domain.eval_ifft, ← rows_sum D _ hn _ (by simp)]
  apply Finset.sum_congr rfl
  intro i hi
  unfold evalsC
  rw [evals_getD D _ (Finset.mem_range.mp hi)]
  split
  · rename_i h
    rw [map_getD_row cs (·.c) (fun k hk => ((inRange_iff cs).mp hr k hk).2.2) h]
  · rfl

theorem evalsA_eval (hr : inRange cs = true) (hn : cs.constraints.length + cs.inputs.length ≤ D.size)
    (t : F) :
    (polyOf (D.ifft (evalsA D cs))).eval t =
      dot (cs.constraints.map fun k => k.a.eval cs.witness) (D.lagrange t) +
      ∑ i ∈ Finset.range cs.inputs.length,
        cs.inputs.getD i 0 * (D.lagrange t).getD (cs.constraints.length + i) 0 := by
  rw [Domain.eval_ifft, dot_eq_sum _ _ (by simp; omega), List.length_map,
    ← Finset.sum_subset (Finset.range_subset_range.mpr hn), Finset.sum_range_add]
  · congr 1
    · apply Finset.sum_congr rfl
      intro i hi
      have hi := Finset.mem_range.mp hi
      unfold evalsA
      rw [evals_getD D _ (by omega), if_pos hi,
        map_getD_row cs (·.a) (fun k hk => ((inRange_iff cs).mp hr k hk).1) hi]
    · apply Finset.sum_congr rfl
      intro i hi
      have hi := Finset.mem_range.mp hi
      unfold evalsA
      rw [evals_getD D _ (by omega), if_neg (by omega), if_pos (by omega), Nat.add_sub_cancel_left]
      unfold full
      rw [List.getD_append _ _ _ _ hi]
  · intro i h1 h2
    have h1 := Finset.mem_range.mp h1
    have h2 : ¬ i < _ := fun h => h2 (Finset.mem_range.mpr h)
    unfold evalsA
    rw [evals_getD D _ h1, if_neg (by omega), if_neg h2, zero_mul]

/-- The row values of `A` on the domain. -/
theorem evalsA_getD (hr : inRange cs = true) {i : Nat} (hi : i < D.size) :
    (evalsA D cs).getD i 0 = if i < cs.constraints.length then
      (cs.constraints.map fun k => k.a.eval cs.witness).getD i 0
      else if i < cs.constraints.length + cs.inputs.length then
        cs.inputs.getD (i - cs.constraints.length) 0 else 0 := by
  unfold evalsA
  rw [evals_getD D _ hi]
  split
  · rename_i h
    exact map_getD_row cs (·.a) (fun k hk => ((inRange_iff cs).mp hr k hk).1) h
  · split
    · unfold full
      rw [List.getD_append _ _ _ _ (by omega)]
    · rfl

theorem evalsB_getD (hr : inRange cs = true) {i : Nat} (hi : i < D.size) :
    (evalsB D cs).getD i 0 = if i < cs.constraints.length then
      (cs.constraints.map fun k => k.b.eval cs.witness).getD i 0 else 0 := by
  unfold evalsB
  rw [evals_getD D _ hi]
  split
  · rename_i h
    exact map_getD_row cs (·.b) (fun k hk => ((inRange_iff cs).mp hr k hk).2.1) h
  · rfl

theorem evalsC_getD (hr : inRange cs = true) {i : Nat} (hi : i < D.size) :
    (evalsC D cs).getD i 0 = if i < cs.constraints.length then
      (cs.constraints.map fun k => k.c.eval cs.witness).getD i 0 else 0 := by
  unfold evalsC
  rw [evals_getD D _ hi]
  split
  · rename_i h
    exact map_getD_row cs (·.c) (fun k hk => ((inRange_iff cs).mp hr k hk).2.2) h
  · rfl

/-! ### The key's polynomials -/

theorem zeros_length : (List.replicate (cs.inputs.length + cs.aux.length) (0 : F)).length =
    (full cs).length := by simp [full]

theorem instanceMap_b (hr : inRange cs = true) (hn : cs.constraints.length ≤ D.size) (t : F) :
    (instanceMap D cs t).b.length = (full cs).length ∧
    dot (instanceMap D cs t).b (full cs) = (polyOf (D.ifft (evalsB D cs))).eval t := by
  have h := dot_addRows cs (List.replicate (cs.inputs.length + cs.aux.length) 0)
    (cs.constraints.map (·.b)) (D.lagrange t) (by
      intro r hr'
      obtain ⟨k, hk, rfl⟩ := List.mem_map.mp hr'
      exact ((inRange_iff cs).mp hr k hk).2.1) zeros_length
  refine ⟨h.1.trans zeros_length, ?_⟩
  rw [evalsB_eval hr hn]
  have h2 := h.2
  rw [dot_replicate_zero, zero_add, List.map_map] at h2
  exact h2

theorem instanceMap_c (hr : inRange cs = true) (hn : cs.constraints.length ≤ D.size) (t : F) :
    (instanceMap D cs t).c.length = (full cs).length ∧
    dot (instanceMap D cs t).c (full cs) = (polyOf (D.ifft (evalsC D cs))).eval t := by
  have h := dot_addRows cs (List.replicate (cs.inputs.length + cs.aux.length) 0)
    (cs.constraints.map (·.c)) (D.lagrange t) (by
      intro r hr'
      obtain ⟨k, hk, rfl⟩ := List.mem_map.mp hr'
      exact ((inRange_iff cs).mp hr k hk).2.2) zeros_length
  refine ⟨h.1.trans zeros_length, ?_⟩
  rw [evalsC_eval hr hn]
  have h2 := h.2
  rw [dot_replicate_zero, zero_add, List.map_map] at h2
  exact h2

theorem instanceMap_a (hr : inRange cs = true)
    (hn : cs.constraints.length + cs.inputs.length ≤ D.size) (t : F) :
    (instanceMap D cs t).a.length = (full cs).length ∧
    dot (instanceMap D cs t).a (full cs) = (polyOf (D.ifft (evalsA D cs))).eval t := by
  have h := dot_addRows cs ((List.replicate (cs.inputs.length + cs.aux.length) (0 : F)).mapIdx fun i x =>
    if i < cs.inputs.length then (D.lagrange t).getD (cs.constraints.length + i) 0 else x)
    (cs.constraints.map (·.a)) (D.lagrange t) (by
      intro r hr'
      obtain ⟨k, hk, rfl⟩ := List.mem_map.mp hr'
      exact ((inRange_iff cs).mp hr k hk).1) (by rw [List.length_mapIdx]; exact zeros_length)
  refine ⟨h.1.trans (by rw [List.length_mapIdx]; exact zeros_length), ?_⟩
  rw [evalsA_eval hr hn]
  have h2 := h.2
  rw [List.map_map] at h2
  refine Eq.trans h2 ?_
  rw [add_comm]
  congr 1
  rw [dot_eq_sum _ _ (by rw [List.length_mapIdx, zeros_length]), List.length_mapIdx,
    List.length_replicate, Finset.sum_range_add]
  have e2 : ∑ i ∈ Finset.range cs.aux.length,
      ((List.replicate (cs.inputs.length + cs.aux.length) (0 : F)).mapIdx fun i x =>
        if i < cs.inputs.length then (D.lagrange t).getD (cs.constraints.length + i) 0 else x).getD
        (cs.inputs.length + i) 0 * (full cs).getD (cs.inputs.length + i) 0 = 0 := by
    apply Finset.sum_eq_zero
    intro i hi
    have hi := Finset.mem_range.mp hi
    rw [List.getD_eq_getElem _ _ (by simp; omega)]
    simp
  rw [e2, add_zero]
  apply Finset.sum_congr rfl
  intro i hi
  have hi := Finset.mem_range.mp hi
  have e1 : ((List.replicate (cs.inputs.length + cs.aux.length) (0 : F)).mapIdx fun i x =>
        if i < cs.inputs.length then (D.lagrange t).getD (cs.constraints.length + i) 0 else x).getD
        i 0 = (D.lagrange t).getD (cs.constraints.length + i) 0 := by
    rw [List.getD_eq_getElem _ _ (by simp; omega), List.getElem_mapIdx, if_pos hi]
  rw [e1]
  unfold full
  rw [List.getD_append _ _ _ _ hi, mul_comm]

/-! ### The quotient -/

theorem sat_iff_rows (hr : inRange cs = true) (hn : cs.constraints.length ≤ D.size) :
    cs.Sat cs.witness ↔ ∀ i < D.size,
      (evalsA D cs).getD i 0 * (evalsB D cs).getD i 0 = (evalsC D cs).getD i 0 := by
  constructor
  · intro h i hi
    rw [evalsA_getD hr hi, evalsB_getD hr hi, evalsC_getD hr hi]
    by_cases hc : i < cs.constraints.length
    · simp only [if_pos hc]
      rw [List.getD_eq_getElem _ _ (by simpa using hc), List.getD_eq_getElem _ _ (by simpa using hc),
        List.getD_eq_getElem _ _ (by simpa using hc)]
      simp only [List.getElem_map]
      exact h _ (List.getElem_mem _)
    · simp only [if_neg hc, mul_zero]
  · intro h k hk
    obtain ⟨i, hi, rfl⟩ := List.getElem_of_mem hk
    have := h i (by omega)
    rw [evalsA_getD hr (by omega), evalsB_getD hr (by omega), evalsC_getD hr (by omega)] at this
    simp only [if_pos hi] at this
    rw [List.getD_eq_getElem _ _ (by simpa using hi), List.getD_eq_getElem _ _ (by simpa using hi),
        List.getD_eq_getElem _ _ (by simpa using hi)] at this
    simp only [List.getElem_map] at this
    exact this

theorem zipWith_getD (f : F → F → F) (hf : f 0 0 = 0) (l m : List F) (h : l.length = m.length)
    (i : Nat) : (List.zipWith f l m).getD i 0 = f (l.getD i 0) (m.getD i 0) := by
  by_cases hi : i < l.length
  · rw [List.getD_eq_getElem _ _ (by simp; omega), List.getD_eq_getElem _ _ hi,
      List.getD_eq_getElem _ _ (by omega), List.getElem_zipWith]
  · rw [List.getD_eq_default _ _ (by simp; omega), List.getD_eq_default _ _ (by omega),
      List.getD_eq_default _ _ (by omega), hf]

theorem witnessMap_length : (witnessMap D cs).length = D.size := by simp [witnessMap]

/-- The quotient agrees with `(A·B − C)/Z` on the coset. -/
theorem witnessMap_coset (h : D.Valid) {k : Nat} (hk : k < D.size) :
    (polyOf (witnessMap D cs)).eval (D.g * D.ω ^ k) * D.vanishing D.g =
      (polyOf (D.ifft (evalsA D cs))).eval (D.g * D.ω ^ k) *
      (polyOf (D.ifft (evalsB D cs))).eval (D.g * D.ω ^ k) -
      (polyOf (D.ifft (evalsC D cs))).eval (D.g * D.ω ^ k) := by
  unfold witnessMap
  rw [h.eval_cosetIfft _ hk]
  unfold Domain.divVanishingOnCoset
  have : ∀ l : List F, (l.map fun x => x * (D.vanishing D.g)⁻¹).getD k 0 =
      l.getD k 0 * (D.vanishing D.g)⁻¹ := by
    intro l
    have := List.getD_map (l := l) (n := k) (d := 0) (fun x => x * (D.vanishing D.g)⁻¹)
    rw [← this, zero_mul]
  rw [this, zipWith_getD _ (by simp) _ _ (by simp), zipWith_getD _ (by simp) _ _ (by simp),
    Domain.Valid.cosetFft_eq_eval _ (by simp) hk, Domain.Valid.cosetFft_eq_eval _ (by simp) hk,
    Domain.Valid.cosetFft_eq_eval _ (by simp) hk, inv_mul_cancel_right₀ h.vanishing_g]

theorem quotient (h : D.Valid) (hr : inRange cs = true) (hn : cs.constraints.length ≤ D.size)
    (hs : cs.Sat cs.witness) :
    polyOf (D.ifft (evalsA D cs)) * polyOf (D.ifft (evalsB D cs)) - polyOf (D.ifft (evalsC D cs)) =
      polyOf (witnessMap D cs) * (X ^ D.size - 1) ∧
    (polyOf (witnessMap D cs)).coeff (D.size - 1) = 0 := by
  set A := polyOf (D.ifft (evalsA D cs)) with hA
  set B := polyOf (D.ifft (evalsB D cs)) with hB
  set Cp := polyOf (D.ifft (evalsC D cs)) with hC
  have dA : A.degree < D.size := by simpa using polyOf_degree (D.ifft (evalsA D cs))
  have dB : B.degree < D.size := by simpa using polyOf_degree (D.ifft (evalsB D cs))
  have dC : Cp.degree < D.size := by simpa using polyOf_degree (D.ifft (evalsC D cs))
  have dH : (polyOf (witnessMap D cs)).degree < D.size := by
    simpa [witnessMap_length] using polyOf_degree (witnessMap D cs)
  obtain ⟨Q, hQ, -⟩ := h.dvd_of_zero (P := A * B - Cp) (by
    intro k hk
    rw [eval_sub, eval_mul, hA, hB, hC, h.eval_ifft_element _ hk, h.eval_ifft_element _ hk,
      h.eval_ifft_element _ hk, (sat_iff_rows hr hn).mp hs k hk, sub_self])
  have hm := Domain.monic_vanishing h
  have hpos := h.pos
  have nA : A.natDegree ≤ D.size - 1 := by
    by_cases h0 : A = 0
    · simp [h0]
    · have := (natDegree_lt_iff_degree_lt h0).mpr dA; omega
  have nB : B.natDegree ≤ D.size - 1 := by
    by_cases h0 : B = 0
    · simp [h0]
    · have := (natDegree_lt_iff_degree_lt h0).mpr dB; omega
  have nC : Cp.natDegree ≤ D.size - 1 := by
    by_cases h0 : Cp = 0
    · simp [h0]
    · have := (natDegree_lt_iff_degree_lt h0).mpr dC; omega
  have nAB : (A * B - Cp).natDegree ≤ 2 * (D.size - 1) := by
    refine (natDegree_sub_le _ _).trans (max_le ?_ (by omega))
    exact natDegree_mul_le.trans (by omega)
  have nQ : Q = 0 ∨ Q.natDegree + D.size ≤ 2 * (D.size - 1) := by
    by_cases hq : Q = 0
    · exact Or.inl hq
    · right
      have hz : (X ^ D.size - 1 : F[X]).natDegree = D.size := by
        rw [← C_1, natDegree_X_pow_sub_C]
      rw [hQ, natDegree_mul' (by
        rw [hm.leadingCoeff, mul_one]; exact leadingCoeff_ne_zero.mpr hq), hz] at nAB
      exact nAB
  have dQ : Q.degree < D.size := by
    rcases nQ with h0 | h0
    · rw [h0, degree_zero]; exact WithBot.bot_lt_coe _
    · refine lt_of_le_of_lt degree_le_natDegree ?_
      exact_mod_cast (by omega : Q.natDegree < D.size)
  have hHQ : polyOf (witnessMap D cs) = Q := by
    refine h.eq_of_agree_coset dH dQ fun k hk => ?_
    have e1 := witnessMap_coset (cs := cs) h hk
    have e2 : D.vanishing (D.g * D.ω ^ k) = D.vanishing D.g := h.vanishing_coset k
    have e3 := congrArg (eval (D.g * D.ω ^ k)) hQ
    rw [eval_sub, eval_mul, eval_mul, Domain.eval_vanishing, e2] at e3
    rw [← hA, ← hB, ← hC] at e1
    have : (polyOf (witnessMap D cs)).eval (D.g * D.ω ^ k) * D.vanishing D.g =
        Q.eval (D.g * D.ω ^ k) * D.vanishing D.g := by rw [e1, e3]
    exact mul_right_cancel₀ h.vanishing_g this
  refine ⟨by rw [hHQ, hQ], ?_⟩
  rw [hHQ]
  rcases nQ with h0 | h0
  · rw [h0, coeff_zero]
  · exact coeff_eq_zero_of_natDegree_lt (by omega)

theorem quotient_only (h : D.Valid) (hr : inRange cs = true) (hn : cs.constraints.length ≤ D.size)
    {H : F[X]}
    (he : polyOf (D.ifft (evalsA D cs)) * polyOf (D.ifft (evalsB D cs)) -
      polyOf (D.ifft (evalsC D cs)) = H * (X ^ D.size - 1)) : cs.Sat cs.witness := by
  rw [sat_iff_rows hr hn]
  intro i hi
  have := congrArg (eval (D.ω ^ i)) he
  rw [eval_sub, eval_mul, eval_mul, Domain.eval_vanishing, h.vanishing_element, mul_zero,
    h.eval_ifft_element _ hi, h.eval_ifft_element _ hi, h.eval_ifft_element _ hi] at this
  exact sub_eq_zero.mp this

/-! ### Keys and proofs -/

variable {G1 G2 GT : Type} [AddCommGroup G1] [AddCommGroup G2] [AddCommGroup GT]
  [Module F G1] [Module F G2] [Module F GT] [DecidableEq GT]

/-- `H` without its last coefficient: what the key's `h_query` lets the prover commit to. -/
theorem msm_h (z δ' t : F) (g1 : G1) (h : List F) (n : Nat) (hl : h.length = n + 1) :
    msm ((List.range n).map fun i => (z * δ' * t ^ i) • g1) h =
      (z * δ' * ∑ i ∈ Finset.range n, h.getD i 0 * t ^ i) • g1 := by
  have : ((List.range n).map fun i => (z * δ' * t ^ i) • g1) =
      ((List.range n).map fun i => z * δ' * t ^ i).map fun x => x • g1 := by
    rw [List.map_map]; rfl
  rw [this, msm_map, dot_eq_sum _ _ (by simp [hl])]
  congr 1
  rw [List.length_map, List.length_range, Finset.mul_sum]
  apply Finset.sum_congr rfl
  intro i hi
  rw [List.getD_eq_getElem _ _ (by simpa using hi)]
  simp only [List.getElem_map, List.getElem_range]
  ring

theorem combine_eq (α β inv : F) (q : Qap F) :
    combine α β inv q = (combine α β 1 q).map (· * inv) := by
  unfold combine
  rw [List.map_zipWith]
  simp only [mul_one]

theorem dot_combine (α β : F) (q : Qap F) (z : List F) (h1 : q.a.length = z.length)
    (h2 : q.b.length = z.length) (h3 : q.c.length = z.length) :
    (combine α β 1 q).length = z.length ∧
    dot (combine α β 1 q) z = β * dot q.a z + α * dot q.b z + dot q.c z := by
  unfold combine
  refine ⟨by simp [h1, h2, h3], ?_⟩
  obtain ⟨a, b, c, zt, n⟩ := q
  simp only at h1 h2 h3 ⊢
  clear zt n
  induction z generalizing a b c with
  | nil => simp
  | cons x z ih =>
    cases a <;> cases b <;> cases c <;> simp only [List.length_cons, List.length_nil] at h1 h2 h3
    all_goals try omega
    rename_i a0 a b0 b c0 c
    simp only [List.zip_cons_cons, List.zipWith_cons_cons, dot_cons]
    rw [ih a b c (by omega) (by omega) (by omega)]
    ring

theorem foldl_gic (xs : List F) (gs : List G1) (g0 : G1) :
    (xs.zip gs).foldl (fun acc p => acc + p.1 • p.2) g0 = g0 + msm gs xs := by
  unfold msm
  induction xs generalizing gs g0 with
  | nil => simp
  | cons x xs ih =>
    cases gs with
    | nil => simp
    | cons g gs => simp [ih, add_assoc]

theorem calculateCoeff_map {G : Type} [AddCommGroup G] [Module F G] (init v g : G) (l z : List F)
    (x : F) (xs : List F) (hz : z = x :: xs) (hx : x = 1) (hl : l.length = z.length) :
    calculateCoeff init (l.map fun x => x • g) v xs = some (init + dot l z • g + v) := by
  subst hz hx
  cases l with
  | nil => simp at hl
  | cons a l =>
    simp only [List.map_cons, calculateCoeff, msm_map, dot_cons, mul_one, add_smul, add_assoc]

theorem instanceMap_congr {cs cs' : CS F} (hc : cs.constraints = cs'.constraints)
    (hi : cs.inputs.length = cs'.inputs.length) (ha : cs.aux.length = cs'.aux.length) (t : F) :
    instanceMap D cs t = instanceMap D cs' t := by
  simp only [instanceMap, hc, hi, ha]

theorem inRange_congr {cs cs' : CS F} (hc : cs.constraints = cs'.constraints)
    (hi : cs.inputs.length = cs'.inputs.length) (ha : cs.aux.length = cs'.aux.length) :
    inRange cs = inRange cs' := by
  simp only [inRange, hc, hi, ha]

/-- What the verifier computes on a proof made by `createProof`, for any assignment. -/
theorem run_all (e : G1 →ₗ[F] G2 →ₗ[F] GT) (mkDomain : Nat → Option (Domain F)) (csG csP : CS F)
    (hc : csG.constraints = csP.constraints) (hi : csG.inputs.length = csP.inputs.length)
    (ha : csG.aux.length = csP.aux.length) (xs : List F) (hone : csP.inputs = 1 :: xs)
    (hr : inRange csP = true)
    (hD : mkDomain (csP.constraints.length + csP.inputs.length) = some D) (h : D.Valid)
    (hn : csP.constraints.length + csP.inputs.length ≤ D.size)
    (α β γ δ t : F) (hγ : γ ≠ 0) (hδ : δ ≠ 0) (g1 : G1) (g2 : G2) (r s : F) :
    ∃ pk pf, generateParameters mkDomain csG α β γ δ t g1 g2 = .ok pk ∧
      createProof mkDomain pk csP r s = .ok pf ∧
      verifyProof e (prepareVerifyingKey e pk.vk) pf xs = .ok (decide (
        ((polyOf (D.ifft (evalsA D csP))).eval t * (polyOf (D.ifft (evalsB D csP))).eval t -
          (polyOf (D.ifft (evalsC D csP))).eval t -
          D.vanishing t * ∑ i ∈ Finset.range (D.size - 1), (witnessMap D csP).getD i 0 * t ^ i) •
          e g1 g2 = 0)) := by
  have hreq : csG.constraints.length + (csG.inputs.length - 1) + 1 =
      csP.constraints.length + csP.inputs.length := by
    rw [hc, hi, hone]; simp; omega
  have hrG : inRange csG = true := by rw [inRange_congr hc hi ha, hr]
  set q := instanceMap D csP t with hq
  obtain ⟨la, da⟩ := instanceMap_a (D := D) hr hn t
  obtain ⟨lb, db⟩ := instanceMap_b (D := D) hr (by omega) t
  obtain ⟨lc, dc⟩ := instanceMap_c (D := D) hr (by omega) t
  rw [← hq] at la da lb db lc dc
  set a := (polyOf (D.ifft (evalsA D csP))).eval t
  set b := (polyOf (D.ifft (evalsB D csP))).eval t
  set c := (polyOf (D.ifft (evalsC D csP))).eval t
  have hsz : q.size = D.size := rfl
  have hzt : q.zt = D.vanishing t := rfl
  refine ⟨?pk, ?pf, ?_, ?_, ?_⟩
  · exact {
      vk := {
        alpha_g1 := α • g1
        beta_g2 := β • g2
        gamma_g2 := γ • g2
        delta_g2 := δ • g2
        gamma_abc_g1 := ((combine α β γ⁻¹ q).take csP.inputs.length).map fun x => x • g1 }
      beta_g1 := β • g1
      delta_g1 := δ • g1
      a_query := q.a.map fun x => x • g1
      b_g1_query := q.b.map fun x => x • g1
      b_g2_query := q.b.map fun x => x • g2
      h_query := (List.range (q.size - 1)).map fun i => (q.zt * δ⁻¹ * t ^ i) • g1
      l_query := ((combine α β δ⁻¹ q).map fun x => x • g1).drop csP.inputs.length }
  · exact ⟨(r • δ • g1 + a • g1 + α • g1), (s • δ • g2 + b • g2 + β • g2),
      s • (r • δ • g1 + a • g1 + α • g1) +
      r • (if r ≠ 0 then (s • δ • g1 + b • g1 + β • g1) else 0) - s • r • δ • g1 +
      msm (((combine α β δ⁻¹ q).map fun x => x • g1).drop csP.inputs.length) csP.aux +
      msm ((List.range (q.size - 1)).map fun i => (q.zt * δ⁻¹ * t ^ i) • g1) (witnessMap D csP)⟩
  · unfold generateParameters
    rw [hreq, hD]
    simp only [hrG, hγ, hδ, if_false, Bool.true_eq_false, instanceMap_congr hc hi ha, hi, hq]
  · unfold createProof
    have hfull : full csP = 1 :: (xs ++ csP.aux) := by simp [full, hone]
    have htail : csP.inputs.tail ++ csP.aux = xs ++ csP.aux := by simp [hone]
    rw [hD]
    simp only [hr, if_false, Bool.true_eq_false, htail]
    rw [calculateCoeff_map _ _ g1 q.a (full csP) 1 _ hfull rfl la,
      calculateCoeff_map _ _ g2 q.b (full csP) 1 _ hfull rfl lb,
      calculateCoeff_map _ _ g1 q.b (full csP) 1 _ hfull rfl lb, da, db]
    by_cases h0 : r = 0 <;> simp [h0, orPanic, bind, Except.bind]
  · obtain ⟨lcomb, dcomb⟩ := dot_combine α β q (full csP) la lb lc
    rw [da, db, dc] at dcomb
    have lγ : (combine α β γ⁻¹ q).length = (full csP).length := by rw [combine_eq]; simpa using lcomb
    have hle : csP.inputs.length ≤ (combine α β 1 q).length := by rw [lcomb]; simp [full]
    -- input part and auxiliary part of the combined dot product
    have hsplit : dot ((combine α β 1 q).take csP.inputs.length) csP.inputs +
        dot ((combine α β 1 q).drop csP.inputs.length) csP.aux = β * a + α * b + c := by
      rw [← dcomb, ← dot_append (by simp [hle]), List.take_append_drop]
      rfl
    set di := dot ((combine α β 1 q).take csP.inputs.length) csP.inputs
    set dx := dot ((combine α β 1 q).drop csP.inputs.length) csP.aux
    have hl : msm (((combine α β δ⁻¹ q).map fun x => x • g1).drop csP.inputs.length) csP.aux =
        (dx * δ⁻¹) • g1 := by
      rw [← List.map_drop, msm_map, combine_eq, ← List.map_drop, dot_map_mul]
    have hh : msm ((List.range (q.size - 1)).map fun i => (q.zt * δ⁻¹ * t ^ i) • g1) (witnessMap D csP) =
        (D.vanishing t * δ⁻¹ * ∑ i ∈ Finset.range (D.size - 1), (witnessMap D csP).getD i 0 * t ^ i) •
          g1 := by
      rw [hsz, hzt, msm_h _ _ _ _ _ _ (by rw [witnessMap_length]; have := h.pos; omega)]
    set hs := ∑ i ∈ Finset.range (D.size - 1), (witnessMap D csP).getD i 0 * t ^ i
    rw [hl, hh]
    unfold verifyProof prepareVerifyingKey
    have hgl : (((combine α β γ⁻¹ q).take csP.inputs.length).map fun x => x • g1).length =
        xs.length + 1 := by
      simp [lγ, full, hone]
    have hgic : ∀ g0 rest, (((combine α β γ⁻¹ q).take csP.inputs.length).map fun x => x • g1) = g0 :: rest →
        g0 + msm rest xs = (di * γ⁻¹) • g1 := by
      intro g0 rest hg
      have h1 : msm (g0 :: rest) csP.inputs = (di * γ⁻¹) • g1 := by
        rw [← hg, msm_map, combine_eq, ← List.map_take, dot_map_mul]
      rw [hone] at h1
      rw [← h1]; simp [msm]
    simp only
    split
    · rename_i hg; rw [hg] at hgl; simp at hgl
    · rename_i g0 rest hg
      have hlen : ¬ (xs.length + 1 ≠ (g0 :: rest).length) := by rw [← hg, hgl]; simp
      rw [if_neg hlen, foldl_gic, hgic g0 rest hg]
      congr 1
      rw [Bool.beq_eq_decide_eq]
      congr 1
      rw [eq_iff_iff, ← sub_eq_zero]
      have hB : r • (if r ≠ 0 then (s • δ • g1 + b • g1 + β • g1) else 0) =
          (r * (s * δ + b + β)) • g1 := by
        by_cases h0 : r = 0
        · simp [h0]
        · rw [if_pos h0]; module
      rw [hB]
      simp only [map_add, map_sub, map_neg, map_smul, LinearMap.add_apply, LinearMap.sub_apply,
        LinearMap.smul_apply, LinearMap.neg_apply]
      have : ∀ x y : GT, x = y → (x = 0 ↔ y = 0) := by rintro x y rfl; rfl
      apply this
      have hdi : di = β * a + α * b + c - dx := by rw [← hsplit]; ring
      rw [hdi]
      match_scalars
      field_simp
      ring

end

end Zkp.Groth16
