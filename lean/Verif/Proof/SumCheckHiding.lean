/- The sum-check provers that commit to their round polynomials, and the batched prover. -/
import Verif.Proof.SumCheck
import Verif.Proof.Bulletproofs

namespace Zkp.Sc

open Zkp.Ml Zkp.Spartan Polynomial

set_option linter.unusedSectionVars false
set_option linter.unusedSimpArgs false

variable {F : Type} [Field F] {G : Type} [AddCommGroup G] [Module F G] [DecidableEq F] [DecidableEq G]

/-! ### One committed round -/

theorem commitVec_one_lin (gs : List G) (h : G) (w0 w1 a b s t : F) :
    w0 • commitVec gs [a] h s + w1 • commitVec gs [b] h t =
      commitVec gs [w0 * a + w1 * b] h (w0 * s + w1 * t) := by
  cases gs with
  | nil => simp [commitVec, msm]; module
  | cons g gs => simp [commitVec, msm]; module

theorem commitVec_pad (gs : List G) (h : G) (p : List F) (n : Nat) (s : F) :
    commitVec gs (p ++ List.replicate n 0) h s = commitVec gs p h s := by
  unfold commitVec
  congr 1
  induction p generalizing gs with
  | nil => simp [Bp.msm_replicate_zero]
  | cons a p ih => cases gs with
    | nil => simp
    | cons g gs => simp [ih]

theorem commitVec_lin (gs : List G) (h : G) (p d : List F) (hl : p.length = d.length) (c s t : F) :
    c • commitVec gs p h s + commitVec gs d h t =
      commitVec gs (List.zipWith (fun p d => c * p + d) p d) h (c * s + t) := by
  unfold commitVec
  have := msm_scalars_add gs p d c 1 hl
  rw [show (fun p d : F => c * p + d) = fun a b => a * c + b * 1 by funext a b; ring, this]
  module

theorem evalCoeffs_dot (w0 w1 r : F) (p : List F) (hp : p ≠ []) :
    (List.zipWith (· * ·) p (evalCoeffs w0 w1 r p.length)).sum =
      w0 * (polyEval p 0 + polyEval p 1) + w1 * polyEval p r := by
  have key : ∀ (p : List F) (k : Nat), (List.zipWith (· * ·) p
      ((List.range p.length).map fun i => w0 + w1 * r ^ (i + k))).sum = w0 * polyEval p 1 + w1 * (r ^ k * polyEval p r) := by
    intro p
    induction p with
    | nil => intro k; simp [polyEval]
    | cons a p ih =>
      intro k
      have e := ih (k + 1)
      rw [List.length_cons, List.range_succ_eq_map, List.map_cons, List.map_map, List.zipWith_cons_cons, List.sum_cons]
      have e2 : ((fun i => w0 + w1 * r ^ (i + k)) ∘ Nat.succ) = fun i => w0 + w1 * r ^ (i + (k + 1)) := by
        funext i; simp only [Function.comp]; congr 3; omega
      rw [e2, e]
      have h1 : polyEval (a :: p) 1 = a + 1 * polyEval p 1 := rfl
      have h2 : polyEval (a :: p) r = a + r * polyEval p r := rfl
      rw [h1, h2, pow_succ, zero_add]; ring
  cases p with
  | nil => exact absurd rfl hp
  | cons a p =>
    have e := key (a :: p) 0
    unfold evalCoeffs
    rw [List.length_cons, List.range_succ_eq_map, List.map_cons] at e ⊢
    rw [List.modify_zero_cons, List.zipWith_cons_cons, List.sum_cons]
    rw [List.zipWith_cons_cons, List.sum_cons] at e
    have h0 : polyEval (a :: p) 0 = a := by simp [polyEval]
    simp only [Nat.add_zero] at e
    rw [h0]
    linear_combination e

theorem zipWith_dot_lin (c : F) (p d e : List F) (h : p.length = d.length) :
    (List.zipWith (· * ·) (List.zipWith (fun p d => c * p + d) p d) e).sum =
      c * (List.zipWith (· * ·) p e).sum + (List.zipWith (· * ·) e d).sum := by
  induction p generalizing d e with
  | nil =>
    cases d with
    | nil => simp
    | cons _ _ => simp at h
  | cons a p ih =>
    cases d with
    | nil => simp at h
    | cons b d =>
      cases e with
      | nil => simp
      | cons x e =>
        simp only [List.zipWith_cons_cons, List.sum_cons, ih d e (by simpa using h)]
        ring

theorem evalCoeffs_length (w0 w1 r : F) (n : Nat) : (evalCoeffs w0 w1 r n).length = n := by simp [evalCoeffs]

/-- The answer of the prover for one round is accepted. -/
theorem scEval_accepts (ch : Oracle F G) (gen1 genN : MultiParams G) (poly : List F) (q : List F) (hq : poly = trim q)
    (hne : q ≠ []) (claim blindClaim : F) (hc : polyEval q 0 + polyEval q 1 = claim) (r : F) (rand : RoundRand F)
    (hd : rand.d.length = q.length) (tr : Transcript F G) :
    Runs (scEvalProver ch gen1 genN poly (commitVec genN.generators poly genN.h rand.blindPoly) claim blindClaim
      (polyEval poly r) q.length r rand) tr fun proof tr' =>
      scEvalVerify ch gen1 genN (commitVec genN.generators poly genN.h rand.blindPoly)
        (commitVec gen1.generators [polyEval poly r] gen1.h rand.blindEval)
        (commitVec gen1.generators [claim] gen1.h blindClaim) proof r q.length tr = .ok (true, tr') := by
  subst hq
  have hlen := trim_length q
  refine Runs.challenge.bind fun w0 tr0 h0 => Runs.challenge.bind fun w1 tr1 h1 => ?_
  refine (Runs.ensure (by simpa using hlen)).bind fun _ tr2 h2 => ?_
  simp only []
  refine Runs.say.bind fun _ tr3 h3 => Runs.say.bind fun _ tr4 h4 => ?_
  refine Runs.say.bind fun _ tr5 h5 => Runs.say.bind fun _ tr6 h6 => ?_
  refine Runs.challenge.bind fun c tr7 h7 => Runs.pure ?_
  obtain ⟨e0, rfl⟩ := h0
  obtain ⟨e1, rfl⟩ := h1
  obtain ⟨e7, rfl⟩ := h7
  subst h2 h3 h4 h5 h6
  have hb : Runs (scEvalVerify ch gen1 genN (commitVec genN.generators (trim q) genN.h rand.blindPoly)
        (commitVec gen1.generators [polyEval (trim q) r] gen1.h rand.blindEval)
        (commitVec gen1.generators [claim] gen1.h blindClaim)
        ⟨commitVec genN.generators rand.d genN.h rand.rDelta,
          commitVec gen1.generators [(List.zipWith (· * ·) (evalCoeffs w0 w1 r q.length) rand.d).sum] gen1.h rand.rBeta,
          List.zipWith (fun p d => c * p + d) (trim q ++ List.replicate (q.length - (trim q).length) 0) rand.d,
          c * rand.blindPoly + rand.rDelta, c * (w0 * blindClaim + w1 * rand.blindEval) + rand.rBeta⟩ r q.length) tr
      fun ok tr' => ok = true ∧ tr' = tr ++ [Msg.chal "combine_two_claims_to_one"] ++
        [Msg.chal "combine_two_claims_to_one"] ++ [Msg.pt "Cx" (commitVec genN.generators (trim q) genN.h rand.blindPoly)] ++
        [Msg.pt "Cy" (commitVec gen1.generators [w0 * claim + w1 * polyEval (trim q) r] gen1.h
          (w0 * blindClaim + w1 * rand.blindEval))] ++
        [Msg.pt "delta" (commitVec genN.generators rand.d genN.h rand.rDelta)] ++
        [Msg.pt "beta" (commitVec gen1.generators [(List.zipWith (· * ·) (evalCoeffs w0 w1 r q.length) rand.d).sum]
          gen1.h rand.rBeta)] ++ [Msg.chal "c"] := by
    refine Runs.challenge.bind fun v0 t0 g0 => Runs.challenge.bind fun v1 t1 g1 => ?_
    obtain ⟨f0, rfl⟩ := g0
    obtain ⟨f1, rfl⟩ := g1
    obtain rfl : v0 = w0 := f0.trans e0.symm
    obtain rfl : v1 = w1 := f1.trans e1.symm
    refine Runs.say.bind fun _ t3 g3 => ?_
    simp only [commitVec_one_lin]
    refine Runs.say.bind fun _ t4 g4 => ?_
    refine Runs.say.bind fun _ t5 g5 => Runs.say.bind fun _ t6 g6 => ?_
    refine Runs.challenge.bind fun c' t7 g7 => ?_
    obtain ⟨f7, rfl⟩ := g7
    subst g3 g4 g5 g6
    obtain rfl : c' = c := f7.trans e7.symm
    refine (Runs.ensure (by simp [trim_pad, hd])).bind fun _ t8 g8 => Runs.pure ⟨?_, g8⟩
    rw [trim_pad]
    rw [Bool.and_eq_true, decide_eq_true_iff, decide_eq_true_iff]
    constructor
    · rw [← commitVec_lin _ _ _ _ hd.symm]
      congr 2
      conv_rhs => rw [← trim_pad q, commitVec_pad]
    · have := commitVec_one_lin gen1.generators gen1.h c' 1 (v0 * claim + v1 * polyEval (trim q) r)
        ((List.zipWith (· * ·) (evalCoeffs v0 v1 r q.length) rand.d).sum)
        (v0 * blindClaim + v1 * rand.blindEval) rand.rBeta
      rw [one_smul, one_mul, one_mul] at this
      rw [this, zipWith_dot_lin c' q rand.d _ hd.symm, evalCoeffs_dot v0 v1 r q hne, hc, polyEval_trim]
  obtain ⟨ok, tr', h1, rfl, rfl⟩ := hb
  exact h1

/-! ### All rounds -/

theorem scRounds_shift (ch : Oracle F G) (gen1 genN : MultiParams G) (c e : G) (p : ScEvalProof F G) (P : ScProof F G)
    (size k i : Nat) (cc : G) :
    scRounds ch gen1 genN ⟨c :: P.commPolys, e :: P.commEvals, p :: P.proofs⟩ size k (i + 1) cc =
      scRounds ch gen1 genN P size k i cc := by
  induction k generalizing i cc with
  | zero => rfl
  | succ k ih => simp only [scRounds, List.getElem?_cons_succ, ih]

theorem hidingRounds_run {d : Nat} {round : List (List F) → F → Option (List F)}
    {Inv : Nat → List (List F) → Prop} {total : List (List F) → F} (hF : Folds d round foldTables Inv total)
    (ch : Oracle F G) (gen1 genN : MultiParams G) (rands : List (RoundRand F)) :
    ∀ (claim blindClaim : F) (ts : List (List F)), (∀ x ∈ rands, x.d.length = d + 1) → Inv rands.length ts →
      claim = total ts → ∀ tr,
      Runs (hidingRounds ch gen1 genN (d + 1) round rands claim blindClaim ts) tr
      fun out tr' => out.2.1.length = rands.length ∧ Inv 0 out.2.2.1 ∧
        foldAll foldTables ts out.2.1 = some out.2.2.1 ∧ out.2.2.2.1 = total out.2.2.1 ∧
        scVerify ch gen1 genN out.1 (commitVec gen1.generators [claim] gen1.h blindClaim) (d + 1) rands.length tr =
          .ok ((out.2.1, commitVec gen1.generators [out.2.2.2.1] gen1.h out.2.2.2.2), tr') := by
  unfold scVerify
  induction rands with
  | nil =>
    intro claim blindClaim ts _ hs hc tr
    exact Runs.pure ⟨rfl, hs, rfl, hc, rfl⟩
  | cons rand rands ih =>
    intro claim blindClaim ts hr hs hc tr
    obtain ⟨p, hp, hq⟩ := hF _ ts hs
    obtain ⟨q, hq1, hq2, hq3, hq4⟩ := hq claim
    have hqn : q ≠ [] := by intro e; simp [e] at hq2
    unfold hidingRounds
    refine (Runs.orPanic hq1).bind fun poly tr e => ?_
    obtain ⟨hpoly, rfl⟩ := e
    simp only []
    refine Runs.say.bind fun _ _ e => ?_
    subst e
    refine Runs.challenge.bind fun r _ e => ?_
    obtain ⟨hr', rfl⟩ := e
    obtain ⟨s', hs1, hs2, hs3⟩ := hp r
    refine (Runs.orPanic hs1).bind fun s'' _ e => ?_
    obtain ⟨hss, rfl⟩ := e
    subst hss
    refine Runs.say.bind fun _ _ e => ?_
    subst e
    refine Runs.say.bind fun _ _ e => ?_
    subst e
    have hacc := scEval_accepts ch gen1 genN poly q hpoly hqn claim blindClaim hq3 r rand
      ((hr rand (by simp)).trans hq2.symm)
    rw [hq2] at hacc
    refine (hacc _).bind fun proof tr1 h1 => ?_
    have hcl : polyEval poly r = total s'' := by rw [hpoly, polyEval_trim, hq4 hc, hs3]
    refine (ih (polyEval poly r) rand.blindEval s'' (fun x hx => hr x (by simp [hx])) hs2 hcl tr1).bind fun out tr2 h2 => ?_
    obtain ⟨P, rs, final, cl, bl⟩ := out
    obtain ⟨h3, h4, h5, h6, h7⟩ := h2
    refine Runs.pure ⟨by simpa using h3, h4, ?_, h6, ?_⟩
    · simp only [foldAll, hs1, Option.bind_some]; exact h5
    · have : Runs (scRounds ch gen1 genN ⟨commitVec genN.generators poly genN.h rand.blindPoly :: P.commPolys,
          commitVec gen1.generators [polyEval poly r] gen1.h rand.blindEval :: P.commEvals, proof :: P.proofs⟩ (d + 1)
          (rands.length + 1) 0 (commitVec gen1.generators [claim] gen1.h blindClaim)) tr
          fun a tr' => a = (r :: rs, commitVec gen1.generators [cl] gen1.h bl) ∧ tr' = tr2 := by
        unfold scRounds
        refine (Runs.orPanic (by rfl)).bind fun _ _ e => ?_
        obtain ⟨rfl, rfl⟩ := e
        refine (Runs.orPanic (by rfl)).bind fun _ _ e => ?_
        obtain ⟨rfl, rfl⟩ := e
        refine (Runs.orPanic (by rfl)).bind fun _ _ e => ?_
        obtain ⟨rfl, rfl⟩ := e
        refine Runs.say.bind fun _ _ e => ?_
        subst e
        refine Runs.challenge.bind fun r' _ e => ?_
        obtain ⟨hr2, rfl⟩ := e
        obtain rfl : r' = r := hr2.trans hr'.symm
        refine Runs.say.bind fun _ _ e => ?_
        subst e
        refine Runs.say.bind fun _ _ e => ?_
        subst e
        refine Runs.bind (P := fun a t => a = true ∧ t = tr1) ⟨true, tr1, h1, rfl, rfl⟩ fun ok t e => ?_
        obtain ⟨rfl, rfl⟩ := e
        refine (Runs.ensure rfl).bind fun _ _ e => ?_
        subst e
        rw [scRounds_shift]
        exact Runs.bind (P := fun a t => a = (rs, commitVec gen1.generators [cl] gen1.h bl) ∧ t = tr2)
          ⟨_, _, h7, rfl, rfl⟩ fun a t e => by
            obtain ⟨rfl, rfl⟩ := e
            exact Runs.pure ⟨rfl, rfl⟩
      obtain ⟨a, t, h, rfl, rfl⟩ := this
      exact h

end Zkp.Sc
