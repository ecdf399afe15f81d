/- Steps of Spartan's prover: the matrix products, the inner-product prover, padding. -/
import Verif.Model.SpartanProver
import Verif.Proof.SpartanTables
import Verif.Props.CommitProofs
import Verif.Props.SumCheck

namespace Zkp.Spartan

open Zkp.Ml Zkp.Sc Zkp.Cp

set_option linter.unusedSectionVars false
set_option linter.unusedSimpArgs false

variable {F : Type} [Field F] {G : Type} [AddCommGroup G] [Module F G] [DecidableEq F] [DecidableEq G]

theorem mapM_of_some {α β : Type} {f : α → Option β} {g : α → β} (l : List α) (h : ∀ x ∈ l, f x = some (g x)) :
    l.mapM f = some (l.map g) := by
  induction l with
  | nil => rfl
  | cons x l ih =>
    rw [List.mapM_cons, h x (by simp), ih fun y hy => h y (by simp [hy])]
    rfl

/-- The matrix applied to the table of all variables. -/
theorem matrixVec (rows : Rows F) (w inputs : List F) (m nx : Nat) (hw : w.length = 2 ^ m)
    (hi : inputs.length + 1 ≤ 2 ^ m) (hf : Ml.Fits rows nx m) (hl : rows.length = 2 ^ nx) :
    evaluateMatrixVec rows (zTab w inputs m) =
      some (rowTab rows (assign (fun i => (zTab w inputs m).getD i 0) inputs) nx) := by
  have hz := zTab_length w inputs m hw hi
  have hz2 : (zTab w inputs m).length / 2 = 2 ^ m := by rw [hz, pow_succ]; omega
  unfold evaluateMatrixVec
  rw [mapM_of_some (g := rowVal (assign (fun i => (zTab w inputs m).getD i 0) inputs))]
  · congr 1
    unfold rowTab
    rw [← hl]
    apply List.ext_getElem (by simp)
    intro i h1 h2
    have h1 : i < rows.length := by simpa using h1
    simp [List.getD_eq_getElem _ _ h1, h1]
  · intro row hrow
    rw [foldlM_some _ (fun sum t => sum + t.1 * assign (fun i => (zTab w inputs m).getD i 0) inputs t.2)]
    · rw [foldl_add_sum, zero_add]; rfl
    · intro t ht b
      have hlt := hf.2 row hrow t ht
      rw [hz2, List.getElem?_eq_getElem (by rw [hz]; exact hlt)]
      simp only [Option.bind_eq_bind, Option.bind_some]
      rw [← zTab_col w inputs m hw, List.getD_eq_getElem _ _ (by rw [hz]; exact hlt)]

theorem modify_fold (n : Nat) (f : (F × Index) × Nat → Nat) (g : (F × Index) × Nat → F) (l : List ((F × Index) × Nat))
    (hl : ∀ x ∈ l, f x < n) (ms : List F) (hm : ms.length = n) :
    l.foldl (fun ms x => ms.modify (f x) (· + g x)) ms =
      (List.range n).map fun c => ms.getD c 0 + (l.map fun x => if f x = c then g x else 0).sum := by
  induction l generalizing ms with
  | nil =>
    apply List.ext_getElem (by simp [hm])
    intro i h1 h2
    simp [List.getElem?_eq_getElem (show i < ms.length from h1)]
  | cons x l ih =>
    rw [List.foldl_cons, ih (fun y hy => hl y (by simp [hy])) _ (by simpa using hm)]
    apply List.map_congr_left
    intro c hc
    have hc : c < n := List.mem_range.1 hc
    rw [List.map_cons, List.sum_cons, ← add_assoc]
    congr 1
    rw [List.getD_eq_getElem _ _ (by simpa [hm] using hc), List.getD_eq_getElem _ _ (by rw [hm]; exact hc),
      List.getElem_modify]
    split_ifs <;> simp

/-- The rows of a matrix, combined with the weights of a point. -/
theorem matrixVecCol (rows : Rows F) (rx : List F) (m : Nat) (hf : Ml.Fits rows rx.length m) :
    evaluateMatrixVecCol rows (evalEq rx) (2 ^ (m + 1)) =
      some ((List.range (2 ^ (m + 1))).map fun c => colSum rows rx m c) := by
  have hn : 2 ^ (m + 1) / 2 = 2 ^ m := by rw [pow_succ]; omega
  have hmem : ∀ x ∈ rows.zipIdx.flatMap (fun (row, i) => row.map fun t => (t, i)),
      col (2 ^ m) x.1.2 < 2 ^ (m + 1) ∧ x.2 < 2 ^ rx.length := by
    rintro ⟨t, i⟩ hx
    rw [List.mem_flatMap] at hx
    obtain ⟨⟨row, j⟩, hr, ht⟩ := hx
    simp only [List.mem_map, Prod.mk.injEq] at ht
    obtain ⟨t', ht', rfl, rfl⟩ := ht
    have hm := List.mem_zipIdx hr
    have hrow : row ∈ rows := by
      have := hm.2.2; simp at this; rw [this]; exact List.getElem_mem _
    exact ⟨hf.2 row hrow t' ht', lt_of_lt_of_le (by have := hm.2.1; simpa using this) hf.1⟩
  unfold evaluateMatrixVecCol
  rw [hn]
  -- the length does not change, so the bound holds in every step
  have key : ∀ (l : List ((F × Index) × Nat)) (ms : List F), ms.length = 2 ^ (m + 1) →
      (∀ x ∈ l, col (2 ^ m) x.1.2 < 2 ^ (m + 1) ∧ x.2 < 2 ^ rx.length) →
      l.foldlM (fun (ms : List F) x => match x with | (t, i) => do
        let c ← (evalEq rx)[i]?
        if col (2 ^ m) t.2 < ms.length then some (ms.modify (col (2 ^ m) t.2) (· + t.1 * c)) else none) ms =
      some (l.foldl (fun ms x => ms.modify (col (2 ^ m) x.1.2) (· + x.1.1 * eqWeight rx x.2)) ms) := by
    intro l
    induction l with
    | nil => intros; rfl
    | cons x l ih =>
      intro ms hms hl
      obtain ⟨t, i⟩ := x
      have h1 := hl (t, i) (by simp)
      rw [List.foldlM_cons, List.foldl_cons]
      simp only [evalEq_getElem? rx _ h1.2, Option.bind_eq_bind, Option.bind_some]
      rw [if_pos (by rw [hms]; exact h1.1)]
      exact ih _ (by simpa using hms) fun y hy => hl y (by simp [hy])
  refine (key _ _ (by simp) hmem).trans ?_
  rw [modify_fold (2 ^ (m + 1)) (fun x => col (2 ^ m) x.1.2) (fun x => x.1.1 * eqWeight rx x.2) _
    (fun x hx => (hmem x hx).1) _ (by simp)]
  congr 1
  apply List.map_congr_left
  intro c hc
  have hc : c < 2 ^ (m + 1) := List.mem_range.1 hc
  rw [List.getD_eq_getElem _ _ (by simpa using hc), List.getElem_replicate, zero_add]
  have := flat_sum rows (fun t i => if col (2 ^ m) t.2 = c then t.1 * eqWeight rx i else 0) 0
  rw [this]
  unfold colSum
  refine Eq.trans ?_ (Finset.sum_subset (s₁ := Finset.range rows.length) ?_ ?_)
  · refine Finset.sum_congr rfl fun i _ => ?_
    unfold entry
    simp only [add_zero]
    induction rows.getD i [] with
    | nil => simp
    | cons t l ih =>
      rw [List.map_cons, List.sum_cons, ih, List.filter_cons]
      split_ifs with h1 <;> simp_all [add_mul]
  · intro i hi; rw [Finset.mem_range] at *; exact lt_of_lt_of_le hi hf.1
  · intro i _ hi
    rw [Finset.mem_range] at hi
    rw [List.getD_eq_default _ _ (by omega)]; simp [entry]

theorem combineColumns_eq (s : Inst F) (rx : List F) (m : Nat) (ra rb rc : F) (ha : Ml.Fits s.a rx.length m)
    (hb : Ml.Fits s.b rx.length m) (hc : Ml.Fits s.c rx.length m) :
    combineColumns s rx (2 ^ (m + 1)) ra rb rc = some (combTab s rx m ra rb rc) := by
  unfold combineColumns
  simp only []
  rw [matrixVecCol _ _ _ ha, matrixVecCol _ _ _ hb, matrixVecCol _ _ _ hc]
  simp only [Option.bind_eq_bind, Option.bind_some, List.length_map, List.length_range, and_self, guard, if_true]
  show some _ = _
  congr 1
  unfold combTab
  apply List.map_congr_left
  intro c hc
  have hc : c < 2 ^ (m + 1) := List.mem_range.1 hc
  rw [getD_map_range _ _ hc, getD_map_range _ _ hc, getD_map_range _ _ hc]

/-- The reduction runs through if no challenge is zero. -/
theorem bulletLoop_runs (ch : Oracle F G) (hch : ∀ t, ch t ≠ 0) (q h : G) (k : Nat) (g : List G) (a b : List F) (blind : F)
    (blinds : List (F × F)) (hg : 2 ^ k ≤ g.length) (ha : a.length = 2 ^ k) (hb : b.length = 2 ^ k)
    (hbl : k ≤ blinds.length) (tr : Transcript F G) :
    Runs (bulletLoop ch q h k g a b blind blinds) tr fun _ _ => True := by
  induction k generalizing g a b blind blinds tr with
  | zero =>
    unfold bulletLoop
    have e1 : a.length = 1 := by simpa using ha
    have e2 : b.length = 1 := by simpa using hb
    have e3 : 0 < g.length := lt_of_lt_of_le (by positivity) hg
    refine (Runs.ensure (by simp [e1, e2])).bind fun _ _ _ => ?_
    refine (Runs.orPanic (List.getElem?_eq_getElem (by omega))).bind fun _ _ _ => ?_
    refine (Runs.orPanic (List.getElem?_eq_getElem (by omega))).bind fun _ _ _ => ?_
    refine (Runs.orPanic (List.getElem?_eq_getElem e3)).bind fun _ _ _ => ?_
    exact Runs.pure trivial
  | succ k ih =>
    unfold bulletLoop
    rw [pow_succ] at hg ha hb
    refine (Runs.ensure (by simp; omega)).bind fun _ _ _ => ?_
    refine (Runs.orPanic (List.getElem?_eq_getElem (by omega))).bind fun _ _ e => ?_
    refine Runs.say.bind fun _ _ _ => Runs.say.bind fun _ _ _ => ?_
    refine Runs.challenge.bind fun x _ e => ?_
    have hx : x ≠ 0 := by rw [e.1]; exact hch _
    refine (Runs.ensure (by simpa using hx)).bind fun _ _ _ => ?_
    refine (ih _ _ _ _ _ (by simp; omega) (by simp; omega) (by simp; omega) (by simp; omega) _).bind fun _ _ _ => ?_
    exact Runs.pure trivial

theorem log2_two_pow (k : Nat) : Nat.log2 (2 ^ k) = k := Nat.log2_two_pow

/-- The prover of a committed evaluation runs through. -/
theorem innerProductProve_runs (ch : Oracle F G) (hch : ∀ t, ch t ≠ 0) (params : PcParams G) (poly blindPoly ry : List F)
    (m : Nat) (hp : poly.length = 2 ^ m) (hb : blindPoly.length = 2 ^ (m / 2)) (hr : ry.length = m)
    (hg : 2 ^ (m - m / 2) ≤ params.genN.generators.length) (h1 : params.gen1.generators ≠ [])
    (ryBlind eval d rDelta rBeta : F) (blinds : List (F × F)) (hbl : m - m / 2 ≤ blinds.length) (tr : Transcript F G) :
    Runs (innerProductProve ch params poly blindPoly ry ryBlind eval d rDelta rBeta blinds) tr fun _ _ => True := by
  unfold innerProductProve
  refine Runs.say.bind fun _ _ _ => ?_
  have hsz : Nat.clog 2 poly.length = m := by rw [hp, Nat.clog_pow 2 m (by decide)]
  have hc : ∀ tr, Runs (combineRows (G := G) poly blindPoly ry) tr (fun x _ => x.1.length = 2 ^ (m - m / 2) ∧
      x.2.2.length = 2 ^ (m - m / 2)) := by
    intro tr
    unfold combineRows
    simp only [hsz]
    refine (Runs.ensure (by simp [hr])).bind fun _ _ _ => ?_
    have hne : ¬ blindPoly.length = 0 := by rw [hb]; positivity
    refine (Runs.ensure (by simp only [hne, if_false]; simp [hb])).bind fun _ _ _ => ?_
    refine (Runs.ensure (by
      simp only [decide_eq_true_eq]; rw [hp, ← pow_add]; apply Nat.pow_le_pow_right (by decide); omega)).bind fun _ _ _ => ?_
    exact Runs.pure ⟨by simp, by simp [evalEq_length, hr]⟩
  refine (hc _).bind fun ⟨lz, lzBlind, re⟩ _ ⟨e1, e2⟩ => ?_
  simp only at e1 e2
  have hd : ∀ tr, Runs (logDotProve ch "challenge_tau" params lz lzBlind re eval ryBlind d rBeta rDelta blinds) tr
      (fun _ _ => True) := by
    intro tr
    unfold logDotProve
    refine Runs.say.bind fun _ _ _ => Runs.say.bind fun _ _ _ => ?_
    refine (Runs.orPanic (List.getElem?_eq_getElem (List.length_pos_iff.2 h1))).bind fun _ _ _ => ?_
    have hb : ∀ tr, Runs (bulletProve ch params.genN.generators (params.gen1.generators[0]'(List.length_pos_iff.2 h1))
        params.gen1.h lz re (lzBlind + ryBlind) blinds) tr (fun _ _ => True) := by
      intro tr
      unfold bulletProve
      refine (Runs.ensure (by simp [isPow2, e1, log2_two_pow])).bind fun _ _ _ => ?_
      refine (Runs.ensure (by simp [e1, e2])).bind fun _ _ _ => ?_
      rw [e1, log2_two_pow]
      exact bulletLoop_runs ch hch _ _ _ _ _ _ _ _ hg e1 e2 hbl _
    rename_i hx
    obtain ⟨rfl, rfl⟩ := hx
    refine (hb _).bind fun _ _ _ => Runs.say.bind fun _ _ _ => Runs.say.bind fun _ _ _ => Runs.challenge.bind fun _ _ _ => ?_
    exact Runs.pure trivial
  exact (hd _).bind fun _ _ _ => Runs.pure trivial

end Zkp.Spartan
