/- Facts about the sum-check provers. -/
import Mathlib.Algebra.Polynomial.Eval.Degree
import Mathlib.Algebra.Polynomial.BigOperators
import Mathlib.Tactic.ComputeDegree
import Mathlib.Tactic.FieldSimp
import Mathlib.Tactic.LinearCombination
import Verif.Model.SumCheck
import Verif.Proof.SpartanRun
import Verif.Proof.Multilinear

namespace Zkp.Sc

open Zkp.Ml Zkp.Spartan Polynomial

set_option linter.unusedSectionVars false
set_option linter.unusedSimpArgs false

variable {F : Type} [Field F] {G : Type} [AddCommGroup G] [Module F G] [DecidableEq F]

/-! ### Coefficient lists -/

theorem polyEval_append (p q : List F) (x : F) : polyEval (p ++ q) x = polyEval p x + x ^ p.length * polyEval q x := by
  induction p with
  | nil => simp [polyEval]
  | cons c p ih =>
    have : polyEval (c :: p ++ q) x = c + x * polyEval (p ++ q) x := rfl
    rw [this, ih]
    have : polyEval (c :: p) x = c + x * polyEval p x := rfl
    rw [this, List.length_cons, pow_succ]; ring

theorem polyEval_trim (p : List F) (x : F) : polyEval (trim p) x = polyEval p x := by
  unfold trim
  induction p using List.reverseRecOn with
  | nil => simp
  | append_singleton p c ih =>
    by_cases hc : c = 0
    · rw [List.rdropWhile_concat_pos _ _ _ (by simpa using hc), ih, polyEval_append, hc]
      simp [polyEval]
    · rw [List.rdropWhile_concat_neg _ _ _ (by simpa using hc)]

theorem trim_length (p : List F) : (trim p).length ≤ p.length := by
  unfold trim
  exact (List.rdropWhile_prefix _ (l := p)).length_le

/-- The trimmed list padded again. -/
theorem trim_pad (p : List F) : trim p ++ List.replicate (p.length - (trim p).length) 0 = p := by
  unfold trim
  induction p using List.reverseRecOn with
  | nil => simp
  | append_singleton p c ih =>
    by_cases hc : c = 0
    · rw [List.rdropWhile_concat_pos _ _ _ (by simpa using hc), hc]
      have hl : (p.rdropWhile fun c => decide (c = 0)).length ≤ p.length :=
        (List.rdropWhile_prefix _ (l := p)).length_le
      rw [List.length_append, List.length_singleton,
        show p.length + 1 - (p.rdropWhile fun c => decide (c = 0)).length =
          (p.length - (p.rdropWhile fun c => decide (c = 0)).length) + 1 by omega,
        List.replicate_succ', ← List.append_assoc, ih]
    · rw [List.rdropWhile_concat_neg _ _ _ (by simpa using hc)]; simp

theorem eval_three (p : F[X]) (h : p.natDegree ≤ 2) (x : F) :
    p.eval x = p.coeff 0 + p.coeff 1 * x + p.coeff 2 * x ^ 2 := by
  rw [eval_eq_sum_range' (show p.natDegree < 3 by omega)]
  simp [Finset.sum_range_succ]

theorem eval_four (p : F[X]) (h : p.natDegree ≤ 3) (x : F) :
    p.eval x = p.coeff 0 + p.coeff 1 * x + p.coeff 2 * x ^ 2 + p.coeff 3 * x ^ 3 := by
  rw [eval_eq_sum_range' (show p.natDegree < 4 by omega)]
  simp [Finset.sum_range_succ]

theorem quadCoeffs_some (h2 : (2 : F) ≠ 0) (e0 e1 e2 : F) : ∃ q, quadCoeffs e0 e1 e2 = some q ∧ q.length = 3 ∧
    polyEval q 0 + polyEval q 1 = e0 + e1 ∧
    ∀ p : F[X], p.natDegree ≤ 2 → p.eval 0 = e0 → p.eval 1 = e1 → p.eval 2 = e2 → ∀ x, polyEval q x = p.eval x := by
  refine ⟨_, by simp only [quadCoeffs, inverse, if_neg h2]; rfl, rfl, ?_, ?_⟩
  · simp [polyEval]; ring
  · intro p hp h0 h1 h2' x
    rw [eval_three p hp] at h0 h1 h2' ⊢
    subst h0 h1 h2'
    simp only [polyEval, List.foldr]
    field_simp
    ring

theorem cubicCoeffs_some (h2 : (2 : F) ≠ 0) (h3 : (3 : F) ≠ 0) (e0 e1 e2 e3 : F) :
    ∃ q, cubicCoeffs e0 e1 e2 e3 = some q ∧ q.length = 4 ∧ polyEval q 0 + polyEval q 1 = e0 + e1 ∧
    ∀ p : F[X], p.natDegree ≤ 3 → p.eval 0 = e0 → p.eval 1 = e1 → p.eval 2 = e2 → p.eval 3 = e3 →
      ∀ x, polyEval q x = p.eval x := by
  have h6 : (6 : F) ≠ 0 := by rw [show (6 : F) = 2 * 3 by norm_num]; exact mul_ne_zero h2 h3
  refine ⟨_, by simp only [cubicCoeffs, inverse, if_neg h2, if_neg h6]; rfl, rfl, ?_, ?_⟩
  · simp [polyEval]; ring
  · intro p hp h0 h1 h2' h3' x
    rw [eval_four p hp] at h0 h1 h2' h3' ⊢
    subst h0 h1 h2' h3'
    simp only [polyEval, List.foldr]
    rw [show (6 : F) = 2 * 3 by norm_num]
    field_simp
    ring

/-! ### Rounds in general -/

/-- What the verifier checks of the round polynomials: each one sums over 0 and 1 to the current claim,
and its value at the challenge is the next claim; `final` is the last claim. -/
def RoundsOk : List (List F) → List F → F → F → Prop
  | [], [], claim, final => claim = final
  | p :: ps, r :: rs, claim, final => polyEval p 0 + polyEval p 1 = claim ∧ RoundsOk ps rs (polyEval p r) final
  | _, _, _, _ => False

/-- Folding by several challenges. -/
def foldAll {S : Type} (fold : S → F → Option S) : S → List F → Option S
  | s, [] => some s
  | s, r :: rs => (fold s r).bind fun s' => foldAll fold s' rs

/-- `total` is the claim that belongs to the tables `s` with `n` variables left: one round on correct
tables works. -/
def Folds {S : Type} (d : Nat) (round : S → F → Option (List F)) (fold : S → F → Option S)
    (Inv : Nat → S → Prop) (total : S → F) : Prop :=
  ∀ n s, Inv (n + 1) s → ∃ p : F[X],
    (∀ r, ∃ s', fold s r = some s' ∧ Inv n s' ∧ total s' = p.eval r) ∧
    ∀ claim, ∃ q, round s claim = some (trim q) ∧ q.length = d + 1 ∧ polyEval q 0 + polyEval q 1 = claim ∧
      (claim = total s → ∀ x, polyEval q x = p.eval x)

/-- The challenges are those of the rounds, from the transcript `tr` to the transcript `tr'`. -/
def Sync (ch : Oracle F G) (label : String) : List (List F) → List F → Transcript F G → Transcript F G → Prop
  | [], [], tr, tr' => tr = tr'
  | p :: ps, r :: rs, tr, tr' => r = ch (tr ++ [.frs label p] ++ [.chal "challenge_nextround"]) ∧
      Sync ch label ps rs (tr ++ [.frs label p] ++ [.chal "challenge_nextround"]) tr'
  | _, _, _, _ => False

theorem plainRounds_run {S : Type} {d : Nat} {round : S → F → Option (List F)} {fold : S → F → Option S}
    {Inv : Nat → S → Prop} {total : S → F} (hF : Folds d round fold Inv total) (ch : Oracle F G) (label : String)
    (n : Nat) : ∀ (claim : F) (s : S), Inv n s → ∀ tr, Runs (plainRounds ch label round fold n claim s) tr
      fun out tr' => out.2.1.length = n ∧ (∀ p ∈ out.1, p.length ≤ d + 1) ∧ Inv 0 out.2.2 ∧
        foldAll fold s out.2.1 = some out.2.2 ∧ Sync ch label out.1 out.2.1 tr tr' ∧
        ∃ final, RoundsOk out.1 out.2.1 claim final ∧ (claim = total s → final = total out.2.2) := by
  induction n with
  | zero =>
    intro claim s hs tr
    exact Runs.pure ⟨rfl, by simp, hs, rfl, rfl, claim, rfl, id⟩
  | succ n ih =>
    intro claim s hs tr
    obtain ⟨p, hp, hq⟩ := hF n s hs
    obtain ⟨q, hq1, hq2, hq3, hq4⟩ := hq claim
    unfold plainRounds
    refine (Runs.orPanic hq1).bind fun _ _ e => ?_
    obtain ⟨rfl, rfl⟩ := e
    refine Runs.say.bind fun _ _ e => ?_
    subst e
    refine Runs.challenge.bind fun r _ e => ?_
    obtain ⟨hr, rfl⟩ := e
    obtain ⟨s', hs1, hs2, hs3⟩ := hp r
    refine (Runs.orPanic hs1).bind fun _ _ e => ?_
    obtain ⟨rfl, rfl⟩ := e
    refine (ih _ _ hs2 _).bind fun out tr' h => ?_
    obtain ⟨polys, rs, final⟩ := out
    obtain ⟨h1, h2, h3, h4, h7, fin, h5, h6⟩ := h
    refine Runs.pure ⟨by simpa using h1, ?_, h3, ?_, ⟨hr, h7⟩, fin, ⟨?_, h5⟩, ?_⟩
    · intro x hx
      rcases List.mem_cons.1 hx with rfl | hx
      · exact (trim_length q).trans hq2.le
      · exact h2 x hx
    · simp only [foldAll, hs1, Option.bind_some]; exact h4
    · rw [polyEval_trim, polyEval_trim]; exact hq3
    · intro hc
      exact h6 (by rw [polyEval_trim, hq4 hc, hs3])

/-! ### Tables -/

/-- All tables have `n` variables. -/
def TablesOk (n : Nat) (ts : List (List F)) : Prop := ts ≠ [] ∧ ∀ t ∈ ts, t.length = 2 ^ n

/-- On a line the summand is a polynomial of degree at most `d`. -/
def SummandDeg (d : Nat) (f : (Nat → F) → F) : Prop :=
  ∀ lo hi : Nat → F, ∃ p : F[X], p.natDegree ≤ d ∧ ∀ x, p.eval x = f fun i => x * hi i + (1 - x) * lo i

theorem mapM_some {α β : Type} (g : α → Option β) (h : α → β) (l : List α) (hg : ∀ a ∈ l, g a = some (h a)) :
    l.mapM g = some (l.map h) := by
  induction l with
  | nil => simp
  | cons a l ih =>
    rw [List.mapM_cons, hg a (by simp), ih fun b hb => hg b (List.mem_cons_of_mem _ hb)]
    rfl

/-- The table folded by `r`. -/
def folded (t : List F) (r : F) : List F :=
  (List.range (t.length / 2)).map fun i => r * t.getD (i + t.length / 2) 0 + (1 - r) * t.getD i 0

theorem combineWithR_eq (t : List F) (n : Nat) (h : t.length = 2 ^ (n + 1)) (r : F) :
    combineWithR t r = some (folded t r) := by
  unfold combineWithR folded
  have hl : t.length / 2 = 2 ^ n := by rw [h, pow_succ]; omega
  simp only [hl]
  rw [if_pos ((isPow2_iff _).2 ⟨n, rfl⟩)]

theorem folded_length (t : List F) (n : Nat) (h : t.length = 2 ^ (n + 1)) (r : F) :
    (folded t r).length = 2 ^ n := by
  have hl : t.length / 2 = 2 ^ n := by rw [h, pow_succ]; omega
  simp [folded, hl]

theorem folded_getD (t : List F) (n : Nat) (h : t.length = 2 ^ (n + 1)) (r : F) (j : Nat) (hj : j < 2 ^ n) :
    (folded t r).getD j 0 = r * t.getD (j + 2 ^ n) 0 + (1 - r) * t.getD j 0 := by
  have hl : t.length / 2 = 2 ^ n := by rw [h, pow_succ]; omega
  unfold folded
  rw [hl, getD_map_range _ _ hj]

theorem foldTables_eq (ts : List (List F)) (n : Nat) (h : ∀ t ∈ ts, t.length = 2 ^ (n + 1)) (r : F) :
    foldTables ts r = some (ts.map (folded · r)) :=
  mapM_some _ _ _ fun t ht => combineWithR_eq t n (h t ht) r

theorem tablesOk_fold {ts : List (List F)} {n : Nat} (h : TablesOk (n + 1) ts) (r : F) :
    TablesOk n (ts.map (folded · r)) := by
  refine ⟨by simpa using h.1, ?_⟩
  intro t ht
  obtain ⟨u, hu, rfl⟩ := List.mem_map.1 ht
  exact folded_length u n (h.2 u hu) r

theorem cells_fold {ts : List (List F)} {n : Nat} (h : ∀ t ∈ ts, t.length = 2 ^ (n + 1)) (r : F) (j : Nat)
    (hj : j < 2 ^ n) :
    cells (ts.map (folded · r)) j = fun i => r * cells ts (j + 2 ^ n) i + (1 - r) * cells ts j i := by
  funext i
  unfold cells
  by_cases hi : i < ts.length
  · have e1 : (ts.map (folded · r)).getD i [] = folded (ts.getD i []) r := by
      simp [List.getD_eq_getElem?_getD, hi]
    rw [e1, folded_getD _ n _ r j hj]
    have : ts.getD i [] = ts[i] := by simp [List.getD_eq_getElem?_getD, hi]
    rw [this]; exact h _ (List.getElem_mem hi)
  · have e1 : (ts.map (folded · r)).getD i [] = [] := by simp [List.getD_eq_getElem?_getD, hi]
    have e2 : ts.getD i [] = [] := by simp [List.getD_eq_getElem?_getD, hi]
    rw [e1, e2]; simp

theorem partSum_eq (f : (Nat → F) → F) (ts : List (List F)) (n : Nat) :
    partSum f ts n = ∑ j ∈ Finset.range n, f (cells ts j) := by
  unfold partSum
  induction n with
  | zero => simp
  | succ n ih => rw [List.range_succ, List.map_append, List.sum_append, ih, Finset.sum_range_succ]; simp

/-- The claim that belongs to tables. -/
def total (f : (Nat → F) → F) (ts : List (List F)) : F := ∑ j ∈ Finset.range (tableLen ts), f (cells ts j)

theorem tableLen_eq {ts : List (List F)} {n : Nat} (h : TablesOk n ts) : tableLen ts = 2 ^ n := by
  obtain ⟨h0, h⟩ := h
  cases ts with
  | nil => exact absurd rfl h0
  | cons t ts => exact h t (by simp)

/-- The round polynomial as a polynomial. -/
theorem roundPoly {d : Nat} {f : (Nat → F) → F} (hf : SummandDeg d f) (ts : List (List F)) (n : Nat) :
    ∃ p : F[X], p.natDegree ≤ d ∧
      ∀ x, p.eval x = ∑ j ∈ Finset.range (2 ^ n), f fun i => x * cells ts (j + 2 ^ n) i + (1 - x) * cells ts j i := by
  choose P hP hE using fun j => hf (cells ts j) (cells ts (j + 2 ^ n))
  refine ⟨∑ j ∈ Finset.range (2 ^ n), P j, ?_, ?_⟩
  · exact natDegree_sum_le_of_forall_le _ _ fun j _ => hP j
  · intro x
    rw [eval_finset_sum]
    exact Finset.sum_congr rfl fun j _ => hE j x

theorem total_split (f : (Nat → F) → F) {ts : List (List F)} {n : Nat} (h : TablesOk (n + 1) ts) :
    total f ts = (∑ j ∈ Finset.range (2 ^ n), f (cells ts j)) + ∑ j ∈ Finset.range (2 ^ n), f (cells ts (j + 2 ^ n)) := by
  unfold total
  rw [tableLen_eq h, show 2 ^ (n + 1) = 2 ^ n + 2 ^ n by rw [pow_succ]; omega, Finset.sum_range_add]
  congr 1
  exact Finset.sum_congr rfl fun j _ => by rw [add_comm]

theorem partSum_fold (f : (Nat → F) → F) {ts : List (List F)} {n : Nat} (h : TablesOk (n + 1) ts) (x : F) :
    partSum f (ts.map (folded · x)) (2 ^ n) =
      ∑ j ∈ Finset.range (2 ^ n), f fun i => x * cells ts (j + 2 ^ n) i + (1 - x) * cells ts j i := by
  rw [partSum_eq]
  exact Finset.sum_congr rfl fun j hj => by rw [cells_fold h.2 x j (Finset.mem_range.1 hj)]

theorem total_fold (f : (Nat → F) → F) {ts : List (List F)} {n : Nat} (h : TablesOk (n + 1) ts) (x : F) :
    total f (ts.map (folded · x)) =
      ∑ j ∈ Finset.range (2 ^ n), f fun i => x * cells ts (j + 2 ^ n) i + (1 - x) * cells ts j i := by
  rw [← partSum_fold f h, partSum_eq, total, tableLen_eq (tablesOk_fold h x)]

theorem half_len {ts : List (List F)} {n : Nat} (h : TablesOk (n + 1) ts) : tableLen ts / 2 = 2 ^ n := by
  rw [tableLen_eq h, pow_succ]; omega

theorem quadRound_folds (h2 : (2 : F) ≠ 0) {f : (Nat → F) → F} (hf : SummandDeg 2 f) :
    Folds 2 (quadRound f) foldTables TablesOk (total f) := by
  intro n ts h
  obtain ⟨p, hd, hp⟩ := roundPoly hf ts n
  have t0 : p.eval 0 = ∑ j ∈ Finset.range (2 ^ n), f (cells ts j) := by rw [hp]; simp
  have t1 : p.eval 1 = ∑ j ∈ Finset.range (2 ^ n), f (cells ts (j + 2 ^ n)) := by rw [hp]; simp
  refine ⟨p, ?_, ?_⟩
  · intro r
    exact ⟨_, foldTables_eq ts n h.2 r, tablesOk_fold h r, by rw [total_fold f h, hp]⟩
  · intro claim
    obtain ⟨q, hq, hl, hs, he⟩ := quadCoeffs_some h2 (partSum f ts (2 ^ n)) (claim - partSum f ts (2 ^ n))
      (partSum f (ts.map (folded · 2)) (2 ^ n))
    refine ⟨q, ?_, hl, by rw [hs]; ring, ?_⟩
    · have := foldTables_eq ts n h.2 2
      unfold foldTables at this
      simp only [quadRound, half_len h, this, Option.bind_eq_bind, Option.bind_some, hq]
      rfl
    · intro hc
      apply he p hd
      · rw [t0, partSum_eq]
      · rw [t1, hc, total_split f h, partSum_eq]; ring
      · rw [hp, partSum_fold f h]

theorem cubicRound_folds (h2 : (2 : F) ≠ 0) (h3 : (3 : F) ≠ 0) {f : (Nat → F) → F} (hf : SummandDeg 3 f) :
    Folds 3 (cubicRound f) foldTables TablesOk (total f) := by
  intro n ts h
  obtain ⟨p, hd, hp⟩ := roundPoly hf ts n
  have t0 : p.eval 0 = ∑ j ∈ Finset.range (2 ^ n), f (cells ts j) := by rw [hp]; simp
  have t1 : p.eval 1 = ∑ j ∈ Finset.range (2 ^ n), f (cells ts (j + 2 ^ n)) := by rw [hp]; simp
  refine ⟨p, ?_, ?_⟩
  · intro r
    exact ⟨_, foldTables_eq ts n h.2 r, tablesOk_fold h r, by rw [total_fold f h, hp]⟩
  · intro claim
    obtain ⟨q, hq, hl, hs, he⟩ := cubicCoeffs_some h2 h3 (partSum f ts (2 ^ n)) (claim - partSum f ts (2 ^ n))
      (partSum f (ts.map (folded · 2)) (2 ^ n)) (partSum f (ts.map (folded · 3)) (2 ^ n))
    refine ⟨q, ?_, hl, by rw [hs]; ring, ?_⟩
    · have e2 := foldTables_eq ts n h.2 2
      have e3 := foldTables_eq ts n h.2 3
      unfold foldTables at e2 e3
      simp only [cubicRound, half_len h, e2, e3, Option.bind_eq_bind, Option.bind_some, hq]
      rfl
    · intro hc
      apply he p hd
      · rw [t0, partSum_eq]
      · rw [t1, hc, total_split f h, partSum_eq]; ring
      · rw [hp, partSum_fold f h]
      · rw [hp, partSum_fold f h]

theorem mle_folded (t : List F) (r : F) (rs : List F) (h : t.length = 2 ^ (rs.length + 1)) :
    mle (folded t r) rs = mle t (r :: rs) :=
  mle_combine _ _ _ _ fun i hi => folded_getD t _ h r i hi

/-- Folding all variables leaves the multilinear extensions. -/
theorem foldAll_tables (ts : List (List F)) (rs : List F) (h : ∀ t ∈ ts, t.length = 2 ^ rs.length) :
    foldAll foldTables ts rs = some (ts.map fun t => [mle t rs]) := by
  induction rs generalizing ts with
  | nil =>
    simp only [foldAll, Option.some.injEq]
    symm
    rw [List.map_congr_left (g := id), List.map_id]
    intro t ht
    have := h t ht
    rw [List.length_nil, pow_zero] at this
    obtain ⟨x, rfl⟩ := List.length_eq_one_iff.1 this
    simp [mle_nil]
  | cons r rs ih =>
    have h' : ∀ t ∈ ts, t.length = 2 ^ (rs.length + 1) := h
    simp only [foldAll, foldTables_eq ts _ h' r, Option.bind_some]
    rw [ih]
    · rw [List.map_map]
      congr 1
      apply List.map_congr_left
      intro t ht
      simp only [Function.comp, mle_folded t r rs (h' t ht)]
    · intro t ht
      obtain ⟨u, hu, rfl⟩ := List.mem_map.1 ht
      exact folded_length u _ (h' u hu) r

theorem heads_some (ts : List (List F)) (rs : List F) :
    heads (ts.map fun t => [mle t rs]) = some (ts.map fun t => mle t rs) := by
  unfold heads
  rw [List.mapM_map]
  exact mapM_some _ _ _ fun t _ => rfl

theorem total_final (f : (Nat → F) → F) (ts : List (List F)) (h : ts ≠ []) (rs : List F) :
    total f (ts.map fun t => [mle t rs]) = f fun i => (ts.map fun t => mle t rs).getD i 0 := by
  cases ts with
  | nil => exact absurd rfl h
  | cons t ts =>
    simp only [total, tableLen, List.map_cons, List.getD_cons_zero, List.length_singleton, Finset.sum_range_one]
    congr 1
    funext i
    unfold cells
    have : ∀ l : List (List F), ((l.map fun t => [mle t rs]).getD i []).getD 0 0 = (l.map fun t => mle t rs).getD i 0 := by
      intro l
      by_cases hi : i < l.length
      · simp [List.getD_eq_getElem?_getD, hi]
      · simp [List.getD_eq_getElem?_getD, hi]
    exact this (t :: ts)

/-! ### The summands -/

/-- The line through two values. -/
noncomputable def line (lo hi : F) : F[X] := C lo + (C hi - C lo) * X

theorem line_eval (lo hi x : F) : (line lo hi).eval x = x * hi + (1 - x) * lo := by
  simp [line]; ring

theorem line_deg (lo hi : F) : (line lo hi).natDegree ≤ 1 := by
  unfold line; compute_degree

theorem mul_deg {p q : F[X]} {a b : Nat} (hp : p.natDegree ≤ a) (hq : q.natDegree ≤ b) :
    (p * q).natDegree ≤ a + b := natDegree_mul_le.trans (Nat.add_le_add hp hq)

theorem add_deg {p q : F[X]} {a : Nat} (hp : p.natDegree ≤ a) (hq : q.natDegree ≤ a) : (p + q).natDegree ≤ a :=
  (natDegree_add_le p q).trans (max_le hp hq)

theorem sub_deg {p q : F[X]} {a : Nat} (hp : p.natDegree ≤ a) (hq : q.natDegree ≤ a) : (p - q).natDegree ≤ a :=
  (natDegree_sub_le p q).trans (max_le hp hq)

theorem libraOne_deg : SummandDeg 2 (libraOne : (Nat → F) → F) := fun lo hi =>
  ⟨line (lo 0) (hi 0) * line (lo 1) (hi 1) + line (lo 0) (hi 0) * line (lo 2) (hi 2) + line (lo 3) (hi 3),
    add_deg (add_deg (mul_deg (line_deg _ _) (line_deg _ _)) (mul_deg (line_deg _ _) (line_deg _ _)))
      ((line_deg _ _).trans (by omega)),
    fun x => by simp only [eval_add, eval_mul, line_eval, libraOne]⟩

theorem libraTwo_deg (fu : F) : SummandDeg 2 (libraTwo fu) := fun lo hi =>
  ⟨line (lo 1) (hi 1) * line (lo 0) (hi 0) * C fu + line (lo 2) (hi 2) * C fu + line (lo 2) (hi 2) * line (lo 0) (hi 0),
    add_deg (add_deg (mul_deg (b := 0) (mul_deg (line_deg _ _) (line_deg _ _)) (by simp))
      ((mul_deg (b := 0) (line_deg _ _) (by simp)).trans (by omega))) (mul_deg (line_deg _ _) (line_deg _ _)),
    fun x => by simp only [eval_add, eval_mul, line_eval, libraTwo, eval_C]⟩

theorem spartanOne_deg : SummandDeg 3 (spartanOne : (Nat → F) → F) := fun lo hi =>
  ⟨line (lo 0) (hi 0) * (line (lo 1) (hi 1) * line (lo 2) (hi 2) - line (lo 3) (hi 3)),
    mul_deg (a := 1) (b := 2) (line_deg _ _) (sub_deg (mul_deg (line_deg _ _) (line_deg _ _))
      ((line_deg _ _).trans (by omega))),
    fun x => by simp only [eval_sub, eval_mul, line_eval, spartanOne]⟩

theorem spartanTwo_deg : SummandDeg 2 (spartanTwo : (Nat → F) → F) := fun lo hi =>
  ⟨line (lo 0) (hi 0) * line (lo 1) (hi 1), mul_deg (line_deg _ _) (line_deg _ _),
    fun x => by simp only [eval_mul, line_eval, spartanTwo]⟩

end Zkp.Sc
