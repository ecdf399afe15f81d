/- Spartan's batched cubic sum-check prover. -/
import Verif.Proof.SumCheck

namespace Zkp.Sc

open Zkp.Ml Zkp.Spartan Polynomial

set_option linter.unusedSectionVars false
set_option linter.unusedSimpArgs false

variable {F : Type} [Field F] {G : Type} [AddCommGroup G] [Module F G] [DecidableEq F]

/-- The product of three tables. -/
def prod3 (v : Nat → F) : F := v 0 * v 1 * v 2

theorem prod3_deg : SummandDeg 3 (prod3 : (Nat → F) → F) := fun lo hi =>
  ⟨line (lo 0) (hi 0) * line (lo 1) (hi 1) * line (lo 2) (hi 2),
    mul_deg (mul_deg (line_deg _ _) (line_deg _ _)) (line_deg _ _),
    fun x => by simp only [eval_mul, line_eval, prod3]⟩

/-- The triples of tables, in the order of the coefficients. -/
def Batch.triples (t : Batch F) : List (List (List F)) :=
  (t.aPar.zip t.bPar).map (fun x => [x.1, x.2, t.cPar]) ++
    ((t.aSeq.zip t.bSeq).zip t.cSeq).map fun x => [x.1.1, x.1.2, x.2]

/-- All tables have `n` variables, and there is a coefficient for each triple. -/
def BatchOk (coeffs : List F) (n : Nat) (t : Batch F) : Prop :=
  t.aPar.length = t.bPar.length ∧ coeffs.length = t.triples.length ∧
  (∀ x ∈ t.aPar ++ t.bPar ++ t.aSeq ++ t.bSeq ++ t.cSeq, x.length = 2 ^ n) ∧ t.cPar.length = 2 ^ n

/-- The claim that belongs to the tables. -/
def batchTotal (coeffs : List F) (t : Batch F) : F :=
  (List.zipWith (fun T c => total prod3 T * c) t.triples coeffs).sum

/-- All tables folded. -/
def Batch.folded (t : Batch F) (r : F) : Batch F :=
  ⟨t.aPar.map (Sc.folded · r), t.bPar.map (Sc.folded · r), Sc.folded t.cPar r, t.aSeq.map (Sc.folded · r),
    t.bSeq.map (Sc.folded · r), t.cSeq.map (Sc.folded · r)⟩

theorem triples_folded (t : Batch F) (r : F) :
    (t.folded r).triples = t.triples.map fun T => T.map (folded · r) := by
  simp only [Batch.triples, Batch.folded, List.zip_map, List.map_map, List.map_append]
  congr 1

theorem triples_ok {coeffs : List F} {n : Nat} {t : Batch F} (h : BatchOk coeffs n t) :
    ∀ T ∈ t.triples, TablesOk n T ∧ T.length = 3 := by
  obtain ⟨_, _, h3, h4⟩ := h
  intro T hT
  rcases List.mem_append.1 hT with hT | hT
  · obtain ⟨x, hx, rfl⟩ := List.mem_map.1 hT
    obtain ⟨h1, h2⟩ := List.of_mem_zip (a := x.1) (b := x.2) hx
    refine ⟨⟨by simp, ?_⟩, rfl⟩
    intro u hu
    simp only [List.mem_cons, List.not_mem_nil, or_false] at hu
    rcases hu with rfl | rfl | rfl
    · exact h3 _ (by simp [h1])
    · exact h3 _ (by simp [h2])
    · exact h4
  · obtain ⟨x, hx, rfl⟩ := List.mem_map.1 hT
    obtain ⟨h1, h2⟩ := List.of_mem_zip (a := x.1) (b := x.2) hx
    obtain ⟨h5, h6⟩ := List.of_mem_zip (a := x.1.1) (b := x.1.2) h1
    refine ⟨⟨by simp, ?_⟩, rfl⟩
    intro u hu
    simp only [List.mem_cons, List.not_mem_nil, or_false] at hu
    rcases hu with rfl | rfl | rfl
    · exact h3 _ (by simp [h5])
    · exact h3 _ (by simp [h6])
    · exact h3 _ (by simp [h2])

theorem foldBatch_eq {coeffs : List F} {n : Nat} {t : Batch F} (h : BatchOk coeffs (n + 1) t) (r : F) :
    foldBatch t r = some (t.folded r) ∧ BatchOk coeffs n (t.folded r) := by
  obtain ⟨h1, h2, h3, h4⟩ := h
  constructor
  · unfold foldBatch
    rw [combineWithR_eq _ n h4, foldTables_eq _ n fun x hx => h3 x (by simp [hx]),
      foldTables_eq _ n fun x hx => h3 x (by simp [hx]), foldTables_eq _ n fun x hx => h3 x (by simp [hx]),
      foldTables_eq _ n fun x hx => h3 x (by simp [hx]), foldTables_eq _ n fun x hx => h3 x (by simp [hx])]
    rfl
  · refine ⟨by simpa [Batch.folded] using h1, by rw [triples_folded]; simpa using h2, ?_, folded_length _ n h4 r⟩
    intro x hx
    simp only [Batch.folded, ← List.map_append] at hx
    obtain ⟨u, hu, rfl⟩ := List.mem_map.1 hx
    exact folded_length _ n (h3 u hu) r

/-- The values of one triple, from its row sums. -/
def evalsOf (n : Nat) (T : List (List F)) : F × F × F :=
  (partSum prod3 T (2 ^ n), partSum prod3 (T.map (folded · 2)) (2 ^ n), partSum prod3 (T.map (folded · 3)) (2 ^ n))

theorem sum_range_map (n : Nat) (f : Nat → F) : ((List.range n).map f).sum = ∑ j ∈ Finset.range n, f j := by
  induction n with
  | zero => simp
  | succ n ih => rw [List.range_succ, List.map_append, List.sum_append, ih, Finset.sum_range_succ]; simp

theorem tripleEvals_eq (a b c : List F) (n : Nat) (h : TablesOk (n + 1) [a, b, c]) :
    tripleEvals a b c = some (evalsOf n [a, b, c]) := by
  have ha := h.2 a (by simp)
  have hb := h.2 b (by simp)
  have hc := h.2 c (by simp)
  have hl : a.length / 2 = 2 ^ n := by rw [ha, pow_succ]; omega
  unfold tripleEvals evalsOf
  rw [if_pos (by rw [ha, hb, hc]; simp)]
  simp only [hl, partSum_fold prod3 h, partSum_eq, sum_range_map]
  congr 3
  · apply Finset.sum_congr rfl
    intro j _
    simp only [prod3, cells, List.getD_cons_zero, List.getD_cons_succ, add_comm (2 ^ n) j]
    ring
  · apply Finset.sum_congr rfl
    intro j _
    simp only [prod3, cells, List.getD_cons_zero, List.getD_cons_succ, add_comm (2 ^ n) j]
    ring

theorem tripleEvals_all {coeffs : List F} {n : Nat} {t : Batch F} (h : BatchOk coeffs (n + 1) t) :
    ∃ par seq, (t.aPar.zip t.bPar).mapM (fun x => tripleEvals x.1 x.2 t.cPar) = some par ∧
      ((t.aSeq.zip t.bSeq).zip t.cSeq).mapM (fun x => tripleEvals x.1.1 x.1.2 x.2) = some seq ∧
      par ++ seq = t.triples.map (evalsOf n) := by
  have hT := triples_ok h
  refine ⟨_, _, mapM_some _ (fun x => evalsOf n [x.1, x.2, t.cPar]) _ ?_,
    mapM_some _ (fun x => evalsOf n [x.1.1, x.1.2, x.2]) _ ?_, ?_⟩
  · intro x hx
    exact tripleEvals_eq _ _ _ n (hT _ (List.mem_append_left _ (List.mem_map.2 ⟨x, hx, rfl⟩))).1
  · intro x hx
    exact tripleEvals_eq _ _ _ n (hT _ (List.mem_append_right _ (List.mem_map.2 ⟨x, hx, rfl⟩))).1
  · simp only [Batch.triples, List.map_append, List.map_map]
    congr 1

/-- A weighted sum of round polynomials. -/
theorem weighted (l : List (List (List F))) (cs : List F) (n : Nat) (h : ∀ T ∈ l, TablesOk (n + 1) T) :
    ∃ p : F[X], p.natDegree ≤ 3 ∧
      (∀ x, p.eval x = (List.zipWith (fun T c => partSum prod3 (T.map (folded · x)) (2 ^ n) * c) l cs).sum) ∧
      p.eval 0 = (List.zipWith (fun T c => partSum prod3 T (2 ^ n) * c) l cs).sum ∧
      p.eval 0 + p.eval 1 = (List.zipWith (fun T c => total prod3 T * c) l cs).sum := by
  induction l generalizing cs with
  | nil => exact ⟨0, by simp, by simp, by simp, by simp⟩
  | cons T l ih =>
    cases cs with
    | nil => exact ⟨0, by simp, by simp, by simp, by simp⟩
    | cons c cs =>
      obtain ⟨p, hd, hp, h0, h1⟩ := ih cs fun U hU => h U (by simp [hU])
      obtain ⟨q, hq, hq'⟩ := roundPoly prod3_deg T n
      have hT := h T (by simp)
      have q0 : q.eval 0 = partSum prod3 T (2 ^ n) := by rw [hq', partSum_eq]; simp
      have q1 : q.eval 0 + q.eval 1 = total prod3 T := by
        rw [total_split prod3 hT, hq', hq']; simp
      refine ⟨q * C c + p, add_deg (mul_deg (b := 0) hq (by simp)) hd, ?_, ?_, ?_⟩
      · intro x
        rw [List.zipWith_cons_cons, List.sum_cons, ← hp, partSum_fold prod3 hT, eval_add, eval_mul, eval_C, hq']
      · rw [List.zipWith_cons_cons, List.sum_cons, ← h0, ← q0, eval_add, eval_mul, eval_C]
      · rw [List.zipWith_cons_cons, List.sum_cons, ← h1, ← q1]
        simp only [eval_add, eval_mul, eval_C]; ring

theorem zipWith_map_left' {α β γ δ : Type} (g : α → β) (f : β → γ → δ) (l : List α) (m : List γ) :
    List.zipWith f (l.map g) m = List.zipWith (fun a c => f (g a) c) l m := by
  rw [List.zipWith_map_left]

theorem batch_folds (h2 : (2 : F) ≠ 0) (h3 : (3 : F) ≠ 0) (coeffs : List F) :
    Folds 3 (batchRound coeffs) foldBatch (BatchOk coeffs) (batchTotal coeffs) := by
  intro n t h
  have hT := triples_ok h
  obtain ⟨p, hd, hp, hp0, hp1⟩ := weighted t.triples coeffs n fun T hT' => (hT T hT').1
  refine ⟨p, ?_, ?_⟩
  · intro r
    obtain ⟨e, hok⟩ := foldBatch_eq h r
    refine ⟨_, e, hok, ?_⟩
    rw [batchTotal, triples_folded, hp, zipWith_map_left']
    congr 1
    apply List.ext_getElem
    · simp
    · intro i hi hi'
      simp only [List.getElem_zipWith]
      congr 1
      have hm := (hT _ (List.getElem_mem (l := t.triples) (n := i) (by simp at hi; omega))).1
      rw [total_fold prod3 hm, partSum_fold prod3 hm]
  · intro claim
    obtain ⟨par, seq, e1, e2, e3⟩ := tripleEvals_all h
    have hlen : coeffs.length = (par ++ seq).length := by rw [e3, List.length_map]; exact h.2.1
    obtain ⟨q, hq, hl, hs, he⟩ := cubicCoeffs_some h2 h3 (p.eval 0) (claim - p.eval 0) (p.eval 2) (p.eval 3)
    refine ⟨q, ?_, hl, by rw [hs]; ring, ?_⟩
    · unfold batchRound
      simp only [Option.bind_eq_bind, e1, e2, h.1, hlen, guard, if_true, Option.bind_some]
      simp only [pure, Option.bind_some]
      rw [e3, zipWith_map_left', zipWith_map_left', zipWith_map_left']
      simp only [evalsOf]
      rw [← hp0, ← hp 2, ← hp 3, hq]
      rfl
    · intro hc
      refine he p hd rfl ?_ rfl rfl
      rw [hc, batchTotal, ← hp1]; ring

end Zkp.Sc
