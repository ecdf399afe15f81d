/- The three sum-checks of a Hyrax layer, run by an honest prover. -/
import Verif.Model.HyraxProver
import Verif.Proof.SumCheckHiding
import Verif.Proof.Hyrax
import Verif.Proof.CommitProofs

set_option linter.unusedSectionVars false

namespace Zkp.Hx

open Zkp.Ml Zkp.Spartan Zkp.Gkr Zkp.Cp Zkp.Sc Polynomial

variable {F : Type} [Field F] {G : Type} [AddCommGroup G] [Module F G] [DecidableEq F] [DecidableEq G]

/-- A round polynomial with `d + 1` coefficients, which is right if the claim is. -/
def Fits (d : Nat) (round : List (List F) → F → Option (List F)) (f : (Nat → F) → F) : Prop :=
  ∀ n ts, TablesOk (n + 1) ts → ∃ p : F[X],
    (∀ r, ∃ ts', foldTables ts r = some ts' ∧ TablesOk n ts' ∧ total f ts' = p.eval r) ∧
    ∀ claim, ∃ q, round ts claim = some q ∧ q.length = d + 1 ∧ polyEval q 0 + polyEval q 1 = claim ∧
      (claim = total f ts → ∀ x, polyEval q x = p.eval x)

theorem quadPoly_fits (h2 : (2 : F) ≠ 0) {f : (Nat → F) → F} (hf : SummandDeg 2 f) : Fits 2 (quadPoly f) f := by
  intro n ts h
  obtain ⟨p, hd, hp⟩ := roundPoly hf ts n
  have t0 : p.eval 0 = ∑ j ∈ Finset.range (2 ^ n), f (cells ts j) := by rw [hp]; simp
  have t1 : p.eval 1 = ∑ j ∈ Finset.range (2 ^ n), f (cells ts (j + 2 ^ n)) := by rw [hp]; simp
  refine ⟨p, ?_, ?_⟩
  · intro r
    exact ⟨_, foldTables_eq ts n h.2 r, tablesOk_fold h r, by rw [total_fold f h, hp]⟩
  · intro claim
    obtain ⟨q, hq, hl, hs, he⟩ := quadCoeffs_some h2 (partSum f ts (2 ^ n)) (claim - partSum f ts (2 ^ n))
      (partSum f (ts.map (folded · 2)) (2 ^ n))
    refine ⟨q, ?_, hl, by rw [hs]; ring, ?_⟩
    · have := foldTables_eq ts n h.2 2
      unfold foldTables at this
      simp only [quadPoly, half_len h, this, Option.bind_eq_bind, Option.bind_some, hq]
    · intro hc
      apply he p hd
      · rw [t0, partSum_eq]
      · rw [t1, hc, total_split f h, partSum_eq]; ring
      · rw [hp, partSum_fold f h]

theorem cubicPoly_fits (h2 : (2 : F) ≠ 0) (h3 : (3 : F) ≠ 0) {f : (Nat → F) → F} (hf : SummandDeg 3 f) :
    Fits 3 (cubicPoly f) f := by
  intro n ts h
  obtain ⟨p, hd, hp⟩ := roundPoly hf ts n
  have t0 : p.eval 0 = ∑ j ∈ Finset.range (2 ^ n), f (cells ts j) := by rw [hp]; simp
  have t1 : p.eval 1 = ∑ j ∈ Finset.range (2 ^ n), f (cells ts (j + 2 ^ n)) := by rw [hp]; simp
  refine ⟨p, ?_, ?_⟩
  · intro r
    exact ⟨_, foldTables_eq ts n h.2 r, tablesOk_fold h r, by rw [total_fold f h, hp]⟩
  · intro claim
    obtain ⟨q, hq, hl, hs, he⟩ := cubicCoeffs_some h2 h3 (partSum f ts (2 ^ n)) (claim - partSum f ts (2 ^ n))
      (partSum f (ts.map (folded · 2)) (2 ^ n)) (partSum f (ts.map (folded · 3)) (2 ^ n))
    refine ⟨q, ?_, hl, by rw [hs]; ring, ?_⟩
    · have e2 := foldTables_eq ts n h.2 2
      have e3 := foldTables_eq ts n h.2 3
      unfold foldTables at e2 e3
      simp only [cubicPoly, half_len h, e2, e3, Option.bind_eq_bind, Option.bind_some, hq]
    · intro hc
      apply he p hd
      · rw [t0, partSum_eq]
      · rw [t1, hc, total_split f h, partSum_eq]; ring
      · rw [hp, partSum_fold f h]
      · rw [hp, partSum_fold f h]

theorem commitVec_trim (gs : List G) (h : G) (q : List F) (s : F) : commitVec gs (trim q) h s = commitVec gs q h s := by
  conv_rhs => rw [← trim_pad q, commitVec_pad]

/-- The challenges are those of the rounds. -/
def InStep (ch : Oracle F G) : List G → List G → List F → G → Transcript F G → Transcript F G → Prop
  | [], [], [], _, tr, tr' => tr = tr'
  | p :: ps, e :: es, r :: rs, comm, tr, tr' =>
    r = ch (tr ++ [.pt "comm_poly" p] ++ [.chal "challenge_nextround"]) ∧
      InStep ch ps es rs e (tr ++ [.pt "comm_poly" p] ++ [.chal "challenge_nextround"] ++
        [.pt "comm_claim_per_round" comm] ++ [.pt "comm_eval" e]) tr'
  | _, _, _, _, _, _ => False

theorem InStep.append {ch : Oracle F G} {ps' es' : List G} {rs' : List F} {tr' tr'' : Transcript F G} :
    ∀ {ps es : List G} {rs : List F} {comm : G} {tr : Transcript F G}, InStep ch ps es rs comm tr tr' →
      InStep ch ps' es' rs' (es.getLastD comm) tr' tr'' → InStep ch (ps ++ ps') (es ++ es') (rs ++ rs') comm tr tr''
  | [], [], [], _, _, h, h' => by cases h; exact h'
  | p :: ps, e :: es, r :: rs, comm, tr, h, h' => by
    refine ⟨h.1, h.2.append ?_⟩
    rwa [List.getLastD_cons] at h'
  | [], [], _ :: _, _, _, h, _ => h.elim
  | [], _ :: _, _, _, _, h, _ => h.elim
  | _ :: _, [], _, _, _, h, _ => h.elim
  | _ :: _, _ :: _, [], _, _, h, _ => h.elim

/-- The verifier follows. -/
theorem zkRounds_follow (ch : Oracle F G) (proof : ZkProof F G) :
    ∀ (ps es : List G) (rs : List F) (j : Nat) (comm : G) (tr tr' : Transcript F G), InStep ch ps es rs comm tr tr' →
      (∀ i < ps.length, proof.polys[j + i]? = ps[i]?) → (∀ i < es.length, proof.evals[j + i]? = es[i]?) →
      zkRounds ch proof ps.length j comm tr = .ok (rs, tr')
  | [], [], [], _, _, _, _, h, _, _ => by cases h; rfl
  | p :: ps, e :: es, r :: rs, j, comm, tr, tr', h, hp, he => by
    obtain ⟨h1, h2⟩ := h
    have hp0 := hp 0 (by simp)
    have he0 := he 0 (by simp)
    have ih := zkRounds_follow ch proof ps es rs (j + 1) e _ _ h2
      (fun i hi => by have := hp (i + 1) (by simpa using hi); simpa [Nat.add_assoc, Nat.add_comm 1] using this)
      (fun i hi => by have := he (i + 1) (by simpa using hi); simpa [Nat.add_assoc, Nat.add_comm 1] using this)
    apply runs_eq
    simp only [List.length_cons, zkRounds]
    refine (Runs.orPanic hp0).bind fun _ _ e => ?_
    obtain ⟨rfl, rfl⟩ := e
    refine (Runs.orPanic he0).bind fun _ _ e => ?_
    obtain ⟨rfl, rfl⟩ := e
    refine Runs.say.bind fun _ _ e => ?_
    subst e
    refine Runs.challenge.bind fun r' _ e => ?_
    obtain ⟨hr, rfl⟩ := e
    refine Runs.say.bind fun _ _ e => ?_
    subst e
    refine Runs.say.bind fun _ _ e => ?_
    subst e
    refine (runs_of ih).bind fun _ _ e => ?_
    obtain ⟨rfl, rfl⟩ := e
    exact Runs.pure ⟨by rw [h1, hr], rfl⟩
  | [], [], _ :: _, _, _, _, _, h, _, _ => h.elim
  | [], _ :: _, _, _, _, _, _, h, _, _ => h.elim
  | _ :: _, [], _, _, _, _, _, h, _, _ => h.elim
  | _ :: _, _ :: _, [], _, _, _, _, h, _, _ => h.elim

/-- One sum-check. -/
theorem zkLoop_run {d : Nat} {round : List (List F) → F → Option (List F)} {f : (Nat → F) → F} (hF : Fits d round f)
    (ch : Oracle F G) (gen1 genK : MultiParams G) (blind : Nat → F) (blindEval : Nat → Option F) (k : Nat) :
    ∀ (j : Nat) (claim : F) (comm : G) (ts : List (List F)), TablesOk k ts →
      (∀ i < k, (blindEval (j + i)).isSome) → ∀ tr,
      Runs (zkLoop ch gen1 genK round blind blindEval k j claim comm ts) tr fun l tr' =>
        l.polys.length = k ∧ (∀ p ∈ l.polys, p.length = d + 1) ∧ l.commEvals.length = k ∧ l.rs.length = k ∧
        l.commPolys.length = k ∧
        (∀ i < k, l.commPolys[i]? = some (commitVec genK.generators (l.polys.getD i []) genK.h (blind (j + i)))) ∧
        foldAll foldTables ts l.rs = some l.tables ∧ InStep ch l.commPolys l.commEvals l.rs comm tr tr' ∧
        l.comm = l.commEvals.getLastD comm ∧ RoundsOk l.polys l.rs claim l.claim ∧
        (claim = total f ts → l.claim = total f l.tables) := by
  induction k with
  | zero =>
    intro j claim comm ts hs hb tr
    exact Runs.pure ⟨rfl, by simp, rfl, rfl, rfl, by simp, rfl, rfl, rfl, rfl, id⟩
  | succ k ih =>
    intro j claim comm ts hs hb tr
    obtain ⟨p, hp, hq⟩ := hF k ts hs
    obtain ⟨q, hq1, hq2, hq3, hq4⟩ := hq claim
    obtain ⟨b, hb0⟩ := Option.isSome_iff_exists.1 (hb 0 (by omega))
    unfold zkLoop
    refine (Runs.orPanic hq1).bind fun _ _ e => ?_
    obtain ⟨rfl, rfl⟩ := e
    refine Runs.say.bind fun _ _ e => ?_
    subst e
    refine Runs.challenge.bind fun r _ e => ?_
    obtain ⟨hr, rfl⟩ := e
    obtain ⟨s', hs1, hs2, hs3⟩ := hp r
    refine (Runs.orPanic hs1).bind fun _ _ e => ?_
    obtain ⟨rfl, rfl⟩ := e
    refine (Runs.orPanic (by simpa using hb0)).bind fun _ _ e => ?_
    obtain ⟨rfl, rfl⟩ := e
    refine Runs.say.bind fun _ _ e => ?_
    subst e
    refine Runs.say.bind fun _ _ e => ?_
    subst e
    refine (ih (j + 1) _ _ _ hs2 (fun i hi => by
      have := hb (i + 1) (by omega); rwa [Nat.add_right_comm, Nat.add_assoc]) _).bind fun l tr' h => ?_
    obtain ⟨h1, h2, h3, h4, h5, h6, h7, h8, h9, h10, h11⟩ := h
    refine Runs.pure ⟨by simpa using h1, ?_, by simpa using h3, by simpa using h4, by simpa using h5, ?_, ?_, ⟨hr, h8⟩, ?_,
      ⟨?_, ?_⟩, ?_⟩
    · intro x hx
      rcases List.mem_cons.1 hx with rfl | hx
      · exact hq2
      · exact h2 x hx
    · intro i hi
      cases i with
      | zero => simp [commitVec_trim]
      | succ i =>
        have := h6 i (by omega)
        simp only [List.getElem?_cons_succ, List.getD_cons_succ, this]
        rw [Nat.add_right_comm, Nat.add_assoc]
    · simp only [foldAll, hs1, Option.bind_some]; exact h7
    · rw [h9, List.getLastD_cons]
    · exact hq3
    · rw [polyEval_trim] at h10; exact h10
    · intro hc
      exact h11 (by rw [polyEval_trim, hq4 hc, hs3])

end Zkp.Hx
