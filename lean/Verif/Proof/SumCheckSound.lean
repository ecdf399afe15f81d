/- Soundness of the sum-check rounds: a false claim survives only if a challenge hits a small set. -/
import Mathlib.Algebra.Polynomial.Roots
import Verif.Proof.SumCheck
import Verif.Proof.CommitProofs

namespace Zkp.Sc

open Zkp.Ml Zkp.Spartan Polynomial
open Zkp.Cp (bind_inv challenge_inv pure_inv)

set_option linter.unusedSectionVars false
set_option linter.unusedSimpArgs false

variable {F : Type} [Field F] {G : Type} [AddCommGroup G] [Module F G] [DecidableEq F] [DecidableEq G]

/-! ### Challenges drawn along a transcript -/

/-- The challenges drawn in the second transcript when it follows the first. -/
def drawnFrom (ch : Oracle F G) : Transcript F G → Transcript F G → List F
  | _, [] => []
  | pre, m :: t => (match m with
    | .chal _ => [ch (pre ++ [m])]
    | _ => []) ++ drawnFrom ch (pre ++ [m]) t

/-- All challenges drawn in a transcript, in order. -/
def drawn (ch : Oracle F G) (t : Transcript F G) : List F := drawnFrom ch [] t

theorem drawnFrom_append (ch : Oracle F G) (pre a b : Transcript F G) :
    drawnFrom ch pre (a ++ b) = drawnFrom ch pre a ++ drawnFrom ch (pre ++ a) b := by
  induction a generalizing pre with
  | nil => simp [drawnFrom]
  | cons m a ih => simp only [List.cons_append, drawnFrom, ih, List.append_assoc, List.nil_append]

theorem drawn_chal (ch : Oracle F G) (t : Transcript F G) (l : String) :
    drawn ch (t ++ [.chal l]) = drawn ch t ++ [ch (t ++ [.chal l])] := by
  unfold drawn
  rw [drawnFrom_append]
  simp [drawnFrom]

theorem drawn_frs (ch : Oracle F G) (t : Transcript F G) (l : String) (x : List F) :
    drawn ch (t ++ [.frs l x]) = drawn ch t := by
  unfold drawn
  rw [drawnFrom_append]
  simp [drawnFrom]

theorem drawn_fr (ch : Oracle F G) (t : Transcript F G) (l : String) (x : F) :
    drawn ch (t ++ [.fr l x]) = drawn ch t := by
  unfold drawn
  rw [drawnFrom_append]
  simp [drawnFrom]

theorem drawn_prefix (ch : Oracle F G) {a b : Transcript F G} (h : a <+: b) : drawn ch a <+: drawn ch b := by
  obtain ⟨c, rfl⟩ := h
  unfold drawn
  rw [drawnFrom_append]
  exact List.prefix_append _ _

/-- Between the first transcript and the second some challenge lies in the set that belongs to what was said
and drawn before it. -/
def Hit (ch : Oracle F G) (bad : Transcript F G → List F → Finset F) (tr tr' : Transcript F G) : Prop :=
  ∃ t l, tr <+: t ∧ t ++ [.chal l] <+: tr' ∧ ch (t ++ [.chal l]) ∈ bad t (drawn ch t)

theorem Hit.mono {ch : Oracle F G} {bad : Transcript F G → List F → Finset F} {tr tr1 tr2 tr3 : Transcript F G}
    (h : Hit ch bad tr1 tr2) (hp : tr <+: tr1) (hp' : tr2 <+: tr3) : Hit ch bad tr tr3 := by
  obtain ⟨t, l, h0, h1, h2⟩ := h
  exact ⟨t, l, hp.trans h0, h1.trans hp', h2⟩

/-! ### Small sets -/

open Classical in
/-- A set of at most `d` elements that contains all elements with the property, if the property implies a
nonzero polynomial equation of degree at most `d`; otherwise empty. -/
noncomputable def fewRoots (d : Nat) (P : F → Prop) : Finset F :=
  if h : ∃ q : F[X], q ≠ 0 ∧ q.natDegree ≤ d ∧ ∀ x, P x → q.eval x = 0 then h.choose.roots.toFinset else ∅

theorem fewRoots_card (d : Nat) (P : F → Prop) : (fewRoots d P).card ≤ d := by
  unfold fewRoots
  split_ifs with h
  · exact (Multiset.toFinset_card_le _).trans ((card_roots' _).trans h.choose_spec.2.1)
  · simp

theorem fewRoots_mem {d : Nat} {P : F → Prop} (q : F[X]) (h0 : q ≠ 0) (hd : q.natDegree ≤ d)
    (hq : ∀ x, P x → q.eval x = 0) {x : F} (hx : P x) : x ∈ fewRoots d P := by
  have h : ∃ q : F[X], q ≠ 0 ∧ q.natDegree ≤ d ∧ ∀ x, P x → q.eval x = 0 := ⟨q, h0, hd, hq⟩
  unfold fewRoots
  rw [dif_pos h, Multiset.mem_toFinset, mem_roots h.choose_spec.1]
  exact h.choose_spec.2.2 x hx

/-- A coefficient list as a polynomial. -/
theorem listPoly (p : List F) (d : Nat) (h : p.length ≤ d + 1) :
    ∃ q : F[X], q.natDegree ≤ d ∧ ∀ x, q.eval x = polyEval p x := by
  suffices hh : ∃ q : F[X], q.degree < p.length ∧ ∀ x, q.eval x = polyEval p x by
    obtain ⟨q, h1, h2⟩ := hh
    refine ⟨q, ?_, h2⟩
    by_cases hq : q = 0
    · simp [hq]
    · have := (natDegree_lt_iff_degree_lt hq).2 h1
      omega
  clear h
  induction p with
  | nil => exact ⟨0, by simp, by simp [polyEval]⟩
  | cons c p ih =>
    obtain ⟨q, h1, h2⟩ := ih
    refine ⟨C c + X * q, ?_, fun x => ?_⟩
    · refine lt_of_le_of_lt (degree_add_le _ _) (max_lt ?_ ?_)
      · refine lt_of_le_of_lt degree_C_le ?_
        rw [List.length_cons]
        exact_mod_cast Nat.succ_pos _
      · by_cases hq : q = 0
        · rw [hq, mul_zero, degree_zero]; exact WithBot.bot_lt_coe _
        · rw [← natDegree_lt_iff_degree_lt (mul_ne_zero X_ne_zero hq), natDegree_X_mul hq, List.length_cons]
          have := (natDegree_lt_iff_degree_lt hq).2 h1
          omega
    · have : polyEval (c :: p) x = c + x * polyEval p x := rfl
      rw [this, eval_add, eval_C, eval_mul, eval_X, h2]

/-! ### The rounds -/

/-- The tables folded by several challenges. -/
def foldMany (ts : List (List F)) (rs : List F) : List (List F) := rs.foldl (fun ts r => ts.map (folded · r)) ts

theorem foldMany_cons (ts : List (List F)) (r : F) (rs : List F) :
    foldMany ts (r :: rs) = foldMany (ts.map (folded · r)) rs := rfl

theorem foldMany_all (ts : List (List F)) (rs : List F) (h : ∀ t ∈ ts, t.length = 2 ^ rs.length) :
    foldMany ts rs = ts.map fun t => [mle t rs] := by
  have h1 := foldAll_tables ts rs h
  suffices hh : ∀ (rs : List F) (ts : List (List F)), (∀ t ∈ ts, t.length = 2 ^ rs.length) →
      foldAll foldTables ts rs = some (foldMany ts rs) by
    rw [hh rs ts h] at h1
    exact Option.some.inj h1
  intro rs
  induction rs with
  | nil => intro ts _; rfl
  | cons r rs ih =>
    intro ts h
    have h' : ∀ t ∈ ts, t.length = 2 ^ (rs.length + 1) := h
    simp only [foldAll, foldTables_eq ts _ h' r, Option.bind_some, foldMany_cons]
    apply ih
    intro t ht
    obtain ⟨u, hu, rfl⟩ := List.mem_map.1 ht
    exact folded_length u _ (h' u hu) r

/-- The challenges of a round whose polynomial is `p` that turn a false claim about the tables into a true one:
those at which `p` and the true round polynomial agree, unless they agree everywhere. -/
noncomputable def badRound (d : Nat) (f : (Nat → F) → F) (ts : List (List F)) (p : List F) : Finset F :=
  fewRoots d fun x => polyEval p x = total f (ts.map (folded · x))

theorem badRound_mem {d e : Nat} {f : (Nat → F) → F} (hf : SummandDeg e f) (he : e ≤ d) {ts : List (List F)} {n : Nat}
    (h : TablesOk (n + 1) ts) {p : List F} (hp : p.length ≤ d + 1)
    (hne : polyEval p 0 + polyEval p 1 ≠ total f ts) {r : F} (hr : polyEval p r = total f (ts.map (folded · r))) :
    r ∈ badRound d f ts p := by
  obtain ⟨q, hq1, hq2⟩ := listPoly p d hp
  obtain ⟨q', hq1', hq2'⟩ := roundPoly hf ts n
  have hv : ∀ x, q'.eval x = total f (ts.map (folded · x)) := fun x => by rw [hq2', total_fold f h]
  refine fewRoots_mem (q - q') ?_ (sub_deg hq1 (hq1'.trans he)) (fun x hx => by rw [eval_sub, hq2, hv, hx, sub_self]) hr
  intro h0
  apply hne
  have h0 : q = q' := sub_eq_zero.1 h0
  rw [← hq2, ← hq2, h0, total_split f h]
  rw [hq2', hq2']
  simp

theorem sync_prefix {ch : Oracle F G} {l : String} {ps : List (List F)} {rs : List F} {a b : Transcript F G}
    (h : Sync ch l ps rs a b) : a <+: b := by
  induction ps generalizing rs a with
  | nil => cases rs with
    | nil => obtain rfl := h; exact List.prefix_rfl
    | cons _ _ => exact absurd h id
  | cons p ps ih => cases rs with
    | nil => exact absurd h id
    | cons r rs =>
      refine List.IsPrefix.trans ?_ (ih h.2)
      rw [List.append_assoc]
      exact List.prefix_append _ _

theorem sync_drawn {ch : Oracle F G} {l : String} {ps : List (List F)} {rs : List F} {a b : Transcript F G}
    (h : Sync ch l ps rs a b) : drawn ch b = drawn ch a ++ rs := by
  induction ps generalizing rs a with
  | nil => cases rs with
    | nil => obtain rfl := h; simp
    | cons _ _ => exact absurd h id
  | cons p ps ih => cases rs with
    | nil => exact absurd h id
    | cons r rs => rw [ih h.2, drawn_chal, drawn_frs, ← h.1]; simp

/-- After rounds that pass all checks a false claim has become a false claim about one point, or some
challenge was bad. -/
theorem rounds_sound {d e : Nat} {f : (Nat → F) → F} (hf : SummandDeg e f) (he : e ≤ d) (ch : Oracle F G)
    (polys : List (List F)) (rs : List F) (tr tr1 : Transcript F G) (hs : Sync ch "poly" polys rs tr tr1)
    (claim final : F) (hr : RoundsOk polys rs claim final) (hp : ∀ p ∈ polys, p.length ≤ d + 1)
    (ts : List (List F)) (h : TablesOk rs.length ts) (hne : claim ≠ total f ts) :
    (∃ t j p, tr <+: t ∧ t ++ [.frs "poly" p] ++ [.chal "challenge_nextround"] <+: tr1 ∧ j < rs.length ∧
      drawn ch t = drawn ch tr ++ rs.take j ∧
      ch (t ++ [.frs "poly" p] ++ [.chal "challenge_nextround"]) ∈ badRound d f (foldMany ts (rs.take j)) p) ∨
    final ≠ f fun i => (ts.map fun t => mle t rs).getD i 0 := by
  induction polys generalizing rs tr claim ts with
  | nil => cases rs with
    | nil =>
      obtain rfl := hr
      right
      rw [← total_final f ts h.1, ← foldMany_all ts [] h.2]
      exact hne
    | cons _ _ => exact absurd hs id
  | cons p ps ih => cases rs with
    | nil => exact absurd hs id
    | cons r rs =>
      obtain ⟨h1, h2⟩ := hs
      obtain ⟨h3, h4⟩ := hr
      by_cases hb : polyEval p r = total f (ts.map (folded · r))
      · left
        refine ⟨tr, 0, p, List.prefix_rfl, ?_, by simp, by simp, ?_⟩
        · exact sync_prefix h2
        · rw [← h1]
          exact badRound_mem hf he h (hp p (by simp)) (by rw [h3]; exact hne) hb
      · rcases ih rs _ h2 (polyEval p r) h4 (fun q hq => hp q (List.mem_cons_of_mem _ hq)) _ (tablesOk_fold h r) hb with
          ⟨t, j, q, a0, a1, a2, a3, a4⟩ | hfin
        · left
          refine ⟨t, j + 1, q, List.IsPrefix.trans (by rw [List.append_assoc]; exact List.prefix_append _ _) a0, a1, by simpa using a2, ?_, ?_⟩
          · rw [a3, drawn_chal, drawn_frs, ← h1, List.take_succ_cons]; simp
          · rw [List.take_succ_cons, foldMany_cons]; exact a4
        · right
          have : (ts.map (folded · r)).map (fun t => mle t rs) = ts.map fun t => mle t (r :: rs) := by
            rw [List.map_map]
            apply List.map_congr_left
            intro t ht
            exact mle_folded t r rs (h.2 t ht)
          rw [this] at hfin
          exact hfin

/-! ### A random point -/

/-- The bad values of the next coordinate of a random point, for a table that is not zero everywhere. -/
noncomputable def badOut (e vs : List F) : Finset F :=
  fewRoots 1 fun x => ∀ j, (folded (vs.foldl folded e) x).getD j 0 = 0

theorem challenges_cons_inv (ch : Oracle F G) (l : String) (n : Nat) (rs : List F) (tr tr' : Transcript F G)
    (h : challenges ch l (n + 1) tr = .ok (rs, tr')) :
    ∃ rs', rs = ch (tr ++ [.chal l]) :: rs' ∧ challenges ch l n (tr ++ [.chal l]) = .ok (rs', tr') := by
  unfold challenges at h
  obtain ⟨c, _, h1, h⟩ := bind_inv h
  obtain ⟨rfl, rfl⟩ := challenge_inv h1
  obtain ⟨cs, _, h2, h⟩ := bind_inv h
  obtain ⟨rfl, rfl⟩ := pure_inv h
  exact ⟨cs, rfl, h2⟩

theorem challenges_drawn (ch : Oracle F G) (l : String) (n : Nat) (rs : List F) (tr tr' : Transcript F G)
    (h : challenges ch l n tr = .ok (rs, tr')) : drawn ch tr' = drawn ch tr ++ rs ∧ rs.length = n ∧ tr <+: tr' := by
  induction n generalizing rs tr with
  | zero =>
    unfold challenges at h
    obtain ⟨rfl, rfl⟩ := pure_inv h
    exact ⟨by simp, rfl, List.prefix_rfl⟩
  | succ n ih =>
    obtain ⟨rs', rfl, h'⟩ := challenges_cons_inv _ _ _ _ _ _ h
    obtain ⟨h1, h2, h3⟩ := ih _ _ h'
    exact ⟨by rw [h1, drawn_chal]; simp, by simp [h2], (List.prefix_append _ _).trans h3⟩

/-- A table that is not zero everywhere has a nonzero extension at a random point, or some coordinate was bad. -/
theorem out_sound (ch : Oracle F G) (l : String) (n : Nat) (e rs : List F) (tr tr' : Transcript F G) (he : e.length = 2 ^ n)
    (hne : ∃ j, e.getD j 0 ≠ 0) (h : challenges ch l n tr = .ok (rs, tr')) :
    Hit ch (fun _ vs => badOut e (vs.drop (drawn ch tr).length)) tr tr' ∨ mle e rs ≠ 0 := by
  induction n generalizing e rs tr with
  | zero =>
    right
    unfold challenges at h
    obtain ⟨rfl, rfl⟩ := pure_inv h
    obtain ⟨j, hj⟩ := hne
    obtain ⟨a, rfl⟩ := List.length_eq_one_iff.1 (show e.length = 1 from he)
    rw [mle_nil]
    cases j with
    | zero => exact hj
    | succ j => simp at hj
  | succ n ih =>
    obtain ⟨rs', rfl, h'⟩ := challenges_cons_inv _ _ _ _ _ _ h
    obtain ⟨d1, d2, d3⟩ := challenges_drawn _ _ _ _ _ _ h'
    obtain ⟨r, hr⟩ : ∃ r, r = ch (tr ++ [.chal l]) := ⟨_, rfl⟩
    rw [← hr] at h ⊢
    by_cases hz : ∀ j, (folded e r).getD j 0 = 0
    · left
      refine ⟨tr, l, List.prefix_rfl, d3, ?_⟩
      beta_reduce
      rw [List.drop_length, ← hr]
      obtain ⟨j, hj⟩ := hne
      have hjl : j < 2 ^ (n + 1) := by
        by_contra hc
        exact hj (List.getD_eq_default _ _ (by omega))
      rw [pow_succ] at hjl
      obtain ⟨k, hk, hk'⟩ : ∃ k, k < 2 ^ n ∧ (e.getD k 0 ≠ 0 ∨ e.getD (k + 2 ^ n) 0 ≠ 0) := by
        by_cases hlt : j < 2 ^ n
        · exact ⟨j, hlt, Or.inl hj⟩
        · exact ⟨j - 2 ^ n, by omega, Or.inr (by rw [Nat.sub_add_cancel (by omega)]; exact hj)⟩
      refine fewRoots_mem (line (e.getD k 0) (e.getD (k + 2 ^ n) 0)) ?_ (line_deg _ _) ?_ hz
      · intro h0
        have e0 := line_eval (e.getD k 0) (e.getD (k + 2 ^ n) 0) 0
        have e1 := line_eval (e.getD k 0) (e.getD (k + 2 ^ n) 0) 1
        rw [h0] at e0 e1
        simp at e0 e1
        rcases hk' with hk' | hk'
        · apply hk'; simpa [List.getD_eq_getElem?_getD] using e0.symm
        · apply hk'; simpa [List.getD_eq_getElem?_getD] using e1.symm
      · intro x hx
        rw [line_eval, ← folded_getD e n he x k hk]
        exact hx k
    · push Not at hz
      rcases ih (folded e r) rs' _ (folded_length e n he r) hz h' with hb | hb
      · left
        obtain ⟨t, l', c1, c2, c3⟩ := hb
        refine ⟨t, l', (List.prefix_append _ _).trans c1, c2, ?_⟩
        obtain ⟨w, hw⟩ := drawn_prefix ch c1
        beta_reduce at c3 ⊢
        rw [← hw, List.drop_left] at c3
        rw [← hw, drawn_chal, ← hr, List.append_assoc, List.drop_left]
        exact c3
      · right
        rw [← mle_folded e r rs' (by rw [he, d2])]
        exact hb

end Zkp.Sc
