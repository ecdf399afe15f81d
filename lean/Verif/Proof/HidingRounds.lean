/- The rounds of a sum-check prover that commits to its polynomials, for challenges fixed beforehand. -/
import Verif.Proof.HidingRun

namespace Zkp.Sc

open Zkp.Ml Zkp.Spartan Zkp.Cp

set_option linter.unusedSectionVars false
set_option linter.unusedSimpArgs false

variable {F : Type} [Field F] {G : Type} [AddCommGroup G] [Module F G] [DecidableEq F] [DecidableEq G]

theorem scEval_yields {ch : Oracle F G} (ho : Oblivious ch) (gen1 genN : MultiParams G) (poly : List F) (pc : G)
    (claim blindClaim eval : F) (size : Nat) (r : F) (rand : RoundRand F) (hl : poly.length ≤ size) (n : Nat) :
    Yields (scEvalProver ch gen1 genN poly pc claim blindClaim eval size r rand) n
      ⟨commitVec genN.generators rand.d genN.h rand.rDelta,
        commitVec gen1.generators [(List.zipWith (· * ·) (evalCoeffs (chalAt ch (n + 1)) (chalAt ch (n + 2)) r size) rand.d).sum]
          gen1.h rand.rBeta,
        List.zipWith (fun p d => chalAt ch (n + 7) * p + d) (poly ++ List.replicate (size - poly.length) 0) rand.d,
        chalAt ch (n + 7) * rand.blindPoly + rand.rDelta,
        chalAt ch (n + 7) * (chalAt ch (n + 1) * blindClaim + chalAt ch (n + 2) * rand.blindEval) + rand.rBeta⟩ (n + 7) :=
  (Yields.challenge ho).bind ((Yields.challenge ho).bind ((Yields.ensure (by simpa using hl)).bind (Yields.say.bind
    (Yields.say.bind (Yields.say.bind (Yields.say.bind ((Yields.challenge ho).bind Yields.pure)))))))

/-- The challenges of the rounds. -/
def roundChals (ch : Oracle F G) : Nat → Nat → List F
  | _, 0 => []
  | n, k + 1 => chalAt ch (n + 2) :: roundChals ch (n + 11) k

theorem roundChals_length (ch : Oracle F G) (n k : Nat) : (roundChals ch n k).length = k := by
  induction k generalizing n with
  | zero => rfl
  | succ k ih => simp [roundChals, ih]

theorem rounds_cons {ch : Oracle F G} (ho : Oblivious ch) (gen1 genN : MultiParams G) (size : Nat)
    (round : List (List F) → F → Option (List F)) (rand : RoundRand F) (rands : List (RoundRand F)) (claim blind : F)
    (ts ts' : List (List F)) (poly : List F) (n n' : Nat) (p : ScProof F G) (rs : List F) (fin : List (List F)) (cl bl : F)
    (h1 : round ts claim = some poly) (hl : poly.length ≤ size) (h2 : foldTables ts (chalAt ch (n + 2)) = some ts')
    (h3 : Yields (hidingRounds ch gen1 genN size round rands (polyEval poly (chalAt ch (n + 2))) rand.blindEval ts') (n + 11)
      (p, rs, fin, cl, bl) n') :
    Yields (hidingRounds ch gen1 genN size round (rand :: rands) claim blind ts) n
      (⟨commitVec genN.generators poly genN.h rand.blindPoly :: p.commPolys,
        commitVec gen1.generators [polyEval poly (chalAt ch (n + 2))] gen1.h rand.blindEval :: p.commEvals,
        ⟨commitVec genN.generators rand.d genN.h rand.rDelta,
          commitVec gen1.generators [(List.zipWith (· * ·) (evalCoeffs (chalAt ch (n + 5)) (chalAt ch (n + 6))
            (chalAt ch (n + 2)) size) rand.d).sum] gen1.h rand.rBeta,
          List.zipWith (fun p d => chalAt ch (n + 11) * p + d) (poly ++ List.replicate (size - poly.length) 0) rand.d,
          chalAt ch (n + 11) * rand.blindPoly + rand.rDelta,
          chalAt ch (n + 11) * (chalAt ch (n + 5) * blind + chalAt ch (n + 6) * rand.blindEval) + rand.rBeta⟩ :: p.proofs⟩,
        chalAt ch (n + 2) :: rs, fin, cl, bl) n' := by
  unfold hidingRounds
  exact (Yields.orPanic h1).bind (Yields.say.bind ((Yields.challenge ho).bind ((Yields.orPanic h2).bind (Yields.say.bind
    (Yields.say.bind ((scEval_yields ho gen1 genN poly _ claim blind _ size _ rand hl (n + 4)).bind (h3.bind Yields.pure)))))))

theorem zip_solve (c : F) (z p : List F) (h : p.length = z.length) :
    List.zipWith (fun p d => c * p + d) p (List.zipWith (fun z p => z - c * p) z p) = z := by
  induction z generalizing p with
  | nil => simp
  | cons a z ih =>
    cases p with
    | nil => simp at h
    | cons b p => simp [ih p (by simpa using h)]

theorem zip_inj (c : F) (p d d' : List F) (h : p.length = d.length) (h' : p.length = d'.length)
    (e : List.zipWith (fun p d => c * p + d) p d = List.zipWith (fun p d => c * p + d) p d') : d = d' := by
  induction p generalizing d d' with
  | nil =>
    rw [List.length_eq_zero_iff.1 h.symm, List.length_eq_zero_iff.1 h'.symm]
  | cons a p ih =>
    match d, d', h, h' with
    | x :: d, y :: d', h, h' =>
      simp only [List.zipWith_cons_cons, List.cons.injEq] at e
      rw [add_left_cancel e.1, ih d d' (by simpa using h) (by simpa using h') e.2]

/-- One round with another polynomial and another claim in the same commitments. -/
theorem round_same (gen1 genN : MultiParams G) (hs1 : Spans F gen1.h) (hsN : Spans F genN.h) (size : Nat) (q q' : List F)
    (hq : q.length = size) (hq' : q'.length = size) (h0 : size ≠ 0) (claim blind claim' blind' : F)
    (hc : polyEval q 0 + polyEval q 1 = claim) (hc' : polyEval q' 0 + polyEval q' 1 = claim')
    (he : commitVec gen1.generators [claim] gen1.h blind = commitVec gen1.generators [claim'] gen1.h blind')
    (r w0 w1 c : F) (rand : RoundRand F) (hd : rand.d.length = size) :
    ∃ rand' : RoundRand F, rand'.d.length = size ∧
      commitVec genN.generators q genN.h rand.blindPoly = commitVec genN.generators q' genN.h rand'.blindPoly ∧
      commitVec gen1.generators [polyEval q r] gen1.h rand.blindEval =
        commitVec gen1.generators [polyEval q' r] gen1.h rand'.blindEval ∧
      commitVec genN.generators rand.d genN.h rand.rDelta = commitVec genN.generators rand'.d genN.h rand'.rDelta ∧
      commitVec gen1.generators [(List.zipWith (· * ·) (evalCoeffs w0 w1 r size) rand.d).sum] gen1.h rand.rBeta =
        commitVec gen1.generators [(List.zipWith (· * ·) (evalCoeffs w0 w1 r size) rand'.d).sum] gen1.h rand'.rBeta ∧
      List.zipWith (fun p d => c * p + d) q rand.d = List.zipWith (fun p d => c * p + d) q' rand'.d ∧
      c * rand.blindPoly + rand.rDelta = c * rand'.blindPoly + rand'.rDelta ∧
      c * (w0 * blind + w1 * rand.blindEval) + rand.rBeta = c * (w0 * blind' + w1 * rand'.blindEval) + rand'.rBeta := by
  obtain ⟨bP, hbP⟩ := hsN.blind genN.generators (commitVec genN.generators q genN.h rand.blindPoly) q'
  obtain ⟨bE, hbE⟩ := hs1.blind gen1.generators (commitVec gen1.generators [polyEval q r] gen1.h rand.blindEval)
    [polyEval q' r]
  set z := List.zipWith (fun p d => c * p + d) q rand.d with hz
  have hzl : z.length = size := by rw [hz]; simp [hq, hd]
  set d' := List.zipWith (fun z p => z - c * p) z q' with hd'
  have hdl : d'.length = size := by rw [hd']; simp [hzl, hq']
  have hz' : List.zipWith (fun p d => c * p + d) q' d' = z := zip_solve c z q' (by rw [hq', hzl])
  refine ⟨⟨bP, bE, d', c * rand.blindPoly + rand.rDelta - c * bP,
    c * (w0 * blind + w1 * rand.blindEval) + rand.rBeta - c * (w0 * blind' + w1 * bE)⟩, hdl, hbP.symm, hbE.symm, ?_, ?_,
    hz'.symm, by ring, by ring⟩
  · have e1 := commitVec_lin genN.generators genN.h q rand.d (by rw [hq, hd]) c rand.blindPoly rand.rDelta
    have e2 := commitVec_lin genN.generators genN.h q' d' (by rw [hq', hdl]) c bP
      (c * rand.blindPoly + rand.rDelta - c * bP)
    rw [hz', add_sub_cancel, hbP] at e2
    rw [← hz] at e1
    exact add_left_cancel (e1.trans e2.symm)
  · have k : ∀ (q d : List F) (claim blind bE rB : F), q.length = size → d.length = size →
        polyEval q 0 + polyEval q 1 = claim →
        c • (w0 • commitVec gen1.generators [claim] gen1.h blind + w1 • commitVec gen1.generators [polyEval q r] gen1.h bE) +
          commitVec gen1.generators [(List.zipWith (· * ·) (evalCoeffs w0 w1 r size) d).sum] gen1.h rB =
        commitVec gen1.generators [(List.zipWith (· * ·) (List.zipWith (fun p d => c * p + d) q d)
          (evalCoeffs w0 w1 r size)).sum] gen1.h (c * (w0 * blind + w1 * bE) + rB) := by
      intro q d claim blind bE rB hq hd hc
      have := commitVec_one_lin gen1.generators gen1.h c 1 (w0 * claim + w1 * polyEval q r)
        ((List.zipWith (· * ·) (evalCoeffs w0 w1 r size) d).sum) (w0 * blind + w1 * bE) rB
      rw [one_smul, one_mul, one_mul] at this
      rw [commitVec_one_lin, this, zipWith_dot_lin c q d _ (by rw [hq, hd]), ← hq,
        evalCoeffs_dot w0 w1 r q (by intro e; rw [e] at hq; exact h0 hq.symm), hc, hq]
    have e1 := k q rand.d claim blind rand.blindEval rand.rBeta hq hd hc
    have e2 := k q' d' claim' blind' bE (c * (w0 * blind + w1 * rand.blindEval) + rand.rBeta - c * (w0 * blind' + w1 * bE))
      hq' hdl hc'
    rw [hz', add_sub_cancel, ← he, hbE] at e2
    rw [← hz] at e1
    exact add_left_cancel (e1.trans e2.symm)

/-- All rounds, for two lists of tables with the same claim in the commitment. -/
theorem rounds_same {d : Nat} {round round' : List (List F) → F → Option (List F)}
    {Inv Inv' : Nat → List (List F) → Prop} {total total' : List (List F) → F} (hF : Folds d round foldTables Inv total)
    (hF' : Folds d round' foldTables Inv' total')
    {ch : Oracle F G} (ho : Oblivious ch) (gen1 genN : MultiParams G) (hs1 : Spans F gen1.h) (hsN : Spans F genN.h)
    (rands : List (RoundRand F)) : ∀ (n : Nat) (claim blind : F) (ts : List (List F)) (claim' blind' : F)
    (ts' : List (List F)), (∀ x ∈ rands, x.d.length = d + 1) → Inv rands.length ts → Inv' rands.length ts' →
      commitVec gen1.generators [claim] gen1.h blind = commitVec gen1.generators [claim'] gen1.h blind' →
      ∃ (rands' : List (RoundRand F)) (proof : ScProof F G) (fin fin' : List (List F)) (cl bl cl' bl' : F),
        rands'.length = rands.length ∧ (∀ x ∈ rands', x.d.length = d + 1) ∧
        commitVec gen1.generators [cl] gen1.h bl = commitVec gen1.generators [cl'] gen1.h bl' ∧
        Yields (hidingRounds ch gen1 genN (d + 1) round rands claim blind ts) n
          (proof, roundChals ch n rands.length, fin, cl, bl) (n + 11 * rands.length) ∧
        Yields (hidingRounds ch gen1 genN (d + 1) round' rands' claim' blind' ts') n
          (proof, roundChals ch n rands.length, fin', cl', bl') (n + 11 * rands.length) := by
  induction rands with
  | nil =>
    intro n claim blind ts claim' blind' ts' _ _ _ he
    exact ⟨[], ⟨[], [], []⟩, ts, ts', claim, blind, claim', blind', rfl, by simp, he, Yields.pure, Yields.pure⟩
  | cons rand rands ih =>
    intro n claim blind ts claim' blind' ts' hd hi hi' he
    obtain ⟨p, hp, hq⟩ := hF _ ts hi
    obtain ⟨q, hq1, hq2, hq3, -⟩ := hq claim
    obtain ⟨p', hp', hq'⟩ := hF' _ ts' hi'
    obtain ⟨q', hq1', hq2', hq3', -⟩ := hq' claim'
    obtain ⟨s, hs, hsi, -⟩ := hp (chalAt ch (n + 2))
    obtain ⟨s', hs', hsi', -⟩ := hp' (chalAt ch (n + 2))
    obtain ⟨rand', hd', e1, e2, e3, e4, e5, e6, e7⟩ := round_same gen1 genN hs1 hsN (d + 1) q q' hq2 hq2' (by omega) claim blind
      claim' blind' hq3 hq3' he (chalAt ch (n + 2)) (chalAt ch (n + 5)) (chalAt ch (n + 6)) (chalAt ch (n + 11)) rand
      (hd rand (by simp))
    obtain ⟨rands', proof, fin, fin', cl, bl, cl', bl', f1, f2, f3, f4, f5⟩ := ih (n + 11)
      (polyEval (trim q) (chalAt ch (n + 2))) rand.blindEval s (polyEval (trim q') (chalAt ch (n + 2))) rand'.blindEval s'
      (fun x hx => hd x (by simp [hx])) hsi hsi' (by rw [polyEval_trim, polyEval_trim]; exact e2)
    have g := rounds_cons ho gen1 genN (d + 1) round rand rands claim blind ts s (trim q) n _ proof _ fin cl bl hq1
      ((trim_length q).trans hq2.le) hs f4
    have g' := rounds_cons ho gen1 genN (d + 1) round' rand' rands' claim' blind' ts' s' (trim q') n _ proof _ fin' cl' bl' hq1'
      ((trim_length q').trans hq2'.le) hs' f5
    have hpad : trim q ++ List.replicate (d + 1 - (trim q).length) 0 = q := by rw [← hq2]; exact trim_pad q
    have hpad' : trim q' ++ List.replicate (d + 1 - (trim q').length) 0 = q' := by rw [← hq2']; exact trim_pad q'
    have e1' : commitVec genN.generators (trim q) genN.h rand.blindPoly =
        commitVec genN.generators (trim q') genN.h rand'.blindPoly := by
      rw [← commitVec_pad genN.generators genN.h (trim q) (d + 1 - (trim q).length), hpad,
        ← commitVec_pad genN.generators genN.h (trim q') (d + 1 - (trim q').length), hpad', e1]
    rw [hpad, polyEval_trim] at g
    rw [hpad', polyEval_trim, ← e1', ← e2, ← e3, ← e4, ← e5, ← e6, ← e7] at g'
    obtain ⟨O, k, k'⟩ : ∃ O, Yields (hidingRounds ch gen1 genN (d + 1) round (rand :: rands) claim blind ts) n
          (O, roundChals ch n (rands.length + 1), fin, cl, bl) (n + 11 + 11 * rands.length) ∧
        Yields (hidingRounds ch gen1 genN (d + 1) round' (rand' :: rands') claim' blind' ts') n
          (O, roundChals ch n (rands.length + 1), fin', cl', bl') (n + 11 + 11 * rands.length) := ⟨_, g, g'⟩
    rw [show n + 11 + 11 * rands.length = n + 11 * (rands.length + 1) by ring] at k k'
    refine ⟨rand' :: rands', O, fin, fin', cl, bl, cl', bl', by simp [f1], ?_, f3, k, k'⟩
    intro x hx
    rcases List.mem_cons.1 hx with rfl | hx
    · exact hd'
    · exact f2 x hx

/-- Different random values give different messages. -/
theorem rounds_inj {d : Nat} {round : List (List F) → F → Option (List F)}
    {Inv : Nat → List (List F) → Prop} {total : List (List F) → F} (hF : Folds d round foldTables Inv total)
    {ch : Oracle F G} (ho : Oblivious ch) (gen1 genN : MultiParams G) (hs1 : Spans F gen1.h) (hsN : Spans F genN.h)
    (rands : List (RoundRand F)) : ∀ (rands2 : List (RoundRand F)) (n n1 n2 : Nat) (claim blind : F) (ts : List (List F))
    (proof : ScProof F G) (x y : List F × List (List F) × F × F),
      (∀ x ∈ rands, x.d.length = d + 1) → (∀ x ∈ rands2, x.d.length = d + 1) → rands2.length = rands.length →
      Inv rands.length ts →
      Yields (hidingRounds ch gen1 genN (d + 1) round rands claim blind ts) n (proof, x) n1 →
      Yields (hidingRounds ch gen1 genN (d + 1) round rands2 claim blind ts) n (proof, y) n2 → rands = rands2 := by
  induction rands with
  | nil =>
    intro rands2 n n1 n2 claim blind ts proof x y _ _ hl _ _ _
    exact (List.length_eq_zero_iff.1 hl).symm
  | cons rand rands ih =>
    rintro (_ | ⟨rand2, rands2⟩) n n1 n2 claim blind ts proof x y hd hd2 hl hi h h'
    · simp at hl
    obtain ⟨p, hp, hq⟩ := hF _ ts hi
    obtain ⟨q, hq1, hq2, hq3, -⟩ := hq claim
    obtain ⟨s, hs, hsi, -⟩ := hp (chalAt ch (n + 2))
    have hl' : rands2.length = rands.length := by simpa using hl
    obtain ⟨-, P, fin, -, cl, bl, -, -, -, -, -, f4, -⟩ := rounds_same hF hF ho gen1 genN hs1 hsN rands (n + 11)
      (polyEval (trim q) (chalAt ch (n + 2))) rand.blindEval s (polyEval (trim q) (chalAt ch (n + 2))) rand.blindEval s
      (fun x hx => hd x (by simp [hx])) hsi hsi rfl
    obtain ⟨-, P2, fin2, -, cl2, bl2, -, -, -, -, -, f5, -⟩ := rounds_same hF hF ho gen1 genN hs1 hsN rands2 (n + 11)
      (polyEval (trim q) (chalAt ch (n + 2))) rand2.blindEval s (polyEval (trim q) (chalAt ch (n + 2))) rand2.blindEval s
      (fun x hx => hd2 x (by simp [hx])) (hl' ▸ hsi) (hl' ▸ hsi) rfl
    have g := rounds_cons ho gen1 genN (d + 1) round rand rands claim blind ts s (trim q) n _ P _ fin cl bl hq1
      ((trim_length q).trans hq2.le) hs f4
    have g' := rounds_cons ho gen1 genN (d + 1) round rand2 rands2 claim blind ts s (trim q) n _ P2 _ fin2 cl2 bl2 hq1
      ((trim_length q).trans hq2.le) hs f5
    have e := ((Prod.mk.inj (g.unique h).1).1).trans ((Prod.mk.inj (g'.unique h').1).1).symm
    have hpad : trim q ++ List.replicate (d + 1 - (trim q).length) 0 = q := by rw [← hq2]; exact trim_pad q
    rw [hpad] at e
    simp only [ScProof.mk.injEq, List.cons.injEq, ScEvalProof.mk.injEq] at e
    obtain ⟨⟨a1, a2⟩, ⟨b1, b2⟩, ⟨-, -, c3, c4, c5⟩, d1⟩ := e
    have hP : P = P2 := by
      cases P; cases P2; simp only at a2 b2 d1; rw [a2, b2, d1]
    have r1 := hsN.blind_inj a1
    have r2 := hs1.blind_inj b1
    have r3 := zip_inj _ _ _ _ (by rw [hq2, hd rand (by simp)]) (by rw [hq2, hd2 rand2 (by simp)]) c3
    rw [r1] at c4
    rw [r2] at c5
    have r4 := add_left_cancel c4
    have r5 := add_left_cancel c5
    rw [hP, r2] at f4
    have r6 := ih rands2 (n + 11) _ _ _ _ s P2 _ _ (fun x hx => hd x (by simp [hx])) (fun x hx => hd2 x (by simp [hx])) hl' hsi
      f4 f5
    rw [r6]
    congr 1
    cases rand; cases rand2
    simp only at r1 r2 r3 r4 r5
    rw [r1, r2, r3, r4, r5]

end Zkp.Sc
