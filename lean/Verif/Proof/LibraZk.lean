/- The hiding provers of Libra and the layers of the protocol. -/
import Verif.Model.LibraZk
import Verif.Proof.HyraxLayers
import Verif.Props.SumCheck
import Verif.Props.Libra

set_option linter.unusedSectionVars false

namespace Zkp.Lz

open Zkp.Ml Zkp.Spartan Zkp.Sc Zkp.Gkr Zkp.Cp Zkp.Hx

variable {F : Type} [Field F] {G : Type} [AddCommGroup G] [Module F G] [DecidableEq F] [DecidableEq G]

theorem asserted_ok {α : Type} {m : Vf F G α} {tr : Transcript F G} {r : α × Transcript F G} :
    asserted m tr = .ok r ↔ m tr = .ok r := by
  unfold asserted
  cases h : m tr with
  | ok x => simp
  | error e => simp

theorem phaseOne_run (h2 : (2 : F) ≠ 0) (ch : Oracle F G) (params : Params G) (f mul add1 add2 : List F) (n : Nat)
    (hn : 1 ≤ n) (hf : f.length = 2 ^ n) (h0 : mul.length = 2 ^ n) (h1 : add1.length = 2 ^ n) (h3 : add2.length = 2 ^ n)
    (claim blindClaim : F) (rands : Nat → RoundRand F) (hd : ∀ i, (rands i).d.length = 3)
    (hcl : claim = ∑ x ∈ Finset.range (2 ^ n), (f.getD x 0 * mul.getD x 0 + f.getD x 0 * add1.getD x 0 + add2.getD x 0))
    (tr : Transcript F G) :
    ∃ proof blind ru tr', zkPhaseOne ch params f mul add1 add2 n claim blindClaim rands tr =
        .ok ((proof, [mle f ru, mle mul ru, mle add1 ru, mle add2 ru], blind, ru), tr') ∧ ru.length = n ∧
      scRounds ch params.gen1 params.gen3 proof 3 n 0 (commitVec params.gen1.generators [claim] params.gen1.h blindClaim) tr =
        .ok ((ru, commitVec params.gen1.generators [mle f ru * mle mul ru + mle f ru * mle add1 ru + mle add2 ru]
          params.gen1.h blind), tr') := by
  have hok : TablesOk n [f, mul, add1, add2] := ⟨by simp, by simp [hf, h0, h1, h3]⟩
  have htot : claim = total libraOne [f, mul, add1, add2] := by
    rw [hcl, total, tableLen_eq hok]; rfl
  suffices h : Runs (zkPhaseOne ch params f mul add1 add2 n claim blindClaim rands) tr fun out tr' =>
      out.2.2.2.length = n ∧
      out.2.1 = [mle f out.2.2.2, mle mul out.2.2.2, mle add1 out.2.2.2, mle add2 out.2.2.2] ∧
      scRounds ch params.gen1 params.gen3 out.1 3 n 0 (commitVec params.gen1.generators [claim] params.gen1.h blindClaim) tr =
        .ok ((out.2.2.2, commitVec params.gen1.generators
          [mle f out.2.2.2 * mle mul out.2.2.2 + mle f out.2.2.2 * mle add1 out.2.2.2 + mle add2 out.2.2.2]
          params.gen1.h out.2.2.1), tr') by
    obtain ⟨⟨proof, v, blind, ru⟩, tr', e, a1, a2, a3⟩ := h
    simp only at a1 a2 a3 e
    subst a2
    exact ⟨proof, blind, ru, tr', e, a1, a3⟩
  unfold zkPhaseOne
  refine (Runs.ensure (by simp [hf, h0, h1, h3])).bind fun _ tr e => ?_
  subst e
  refine (hidingRounds_run (quadRound_folds h2 libraOne_deg) ch params.gen1 params.gen3 ((List.range n).map rands) claim
    blindClaim _ (by simpa using fun i _ => hd i) (by simpa using hok) htot _).bind fun out tr' h => ?_
  obtain ⟨proof, ru, ts, cl, blind⟩ := out
  obtain ⟨b1, b2, b3, b4, b5⟩ := h
  simp only [List.length_map, List.length_range] at b1 b2 b3 b4 b5
  rw [foldAll_tables _ _ (by rw [b1]; exact hok.2)] at b3
  obtain rfl := Option.some.inj b3
  rw [total_final _ _ (by simp)] at b4
  subst b4
  refine (Runs.orPanic (by rfl)).bind fun _ _ e => ?_
  obtain ⟨rfl, rfl⟩ := e
  refine (Runs.ensure (by simpa using hn)).bind fun _ tr e => ?_
  subst e
  exact Runs.pure ⟨b1, rfl, b5⟩

theorem phaseTwo_run (h2 : (2 : F) ≠ 0) (ch : Oracle F G) (params : Params G) (f mul add : List F) (fu : F) (n : Nat)
    (hn : 1 ≤ n) (hf : f.length = 2 ^ n) (h0 : mul.length = 2 ^ n) (h1 : add.length = 2 ^ n)
    (claim blindClaim : F) (rands : Nat → RoundRand F) (hd : ∀ i, (rands i).d.length = 3)
    (hcl : claim = ∑ y ∈ Finset.range (2 ^ n), (mul.getD y 0 * f.getD y 0 * fu + add.getD y 0 * fu + add.getD y 0 * f.getD y 0))
    (tr : Transcript F G) :
    ∃ proof blind rv tr', zkPhaseTwo ch params f mul add fu n claim blindClaim rands tr =
        .ok ((proof, [mle f rv, mle mul rv, mle add rv], blind, rv), tr') ∧ rv.length = n ∧
      scRounds ch params.gen1 params.gen3 proof 3 n 0 (commitVec params.gen1.generators [claim] params.gen1.h blindClaim) tr =
        .ok ((rv, commitVec params.gen1.generators [mle mul rv * mle f rv * fu + mle add rv * fu + mle add rv * mle f rv]
          params.gen1.h blind), tr') := by
  have hok : TablesOk n [f, mul, add] := ⟨by simp, by simp [hf, h0, h1]⟩
  have htot : claim = total (libraTwo fu) [f, mul, add] := by
    rw [hcl, total, tableLen_eq hok]; rfl
  suffices h : Runs (zkPhaseTwo ch params f mul add fu n claim blindClaim rands) tr fun out tr' =>
      out.2.2.2.length = n ∧ out.2.1 = [mle f out.2.2.2, mle mul out.2.2.2, mle add out.2.2.2] ∧
      scRounds ch params.gen1 params.gen3 out.1 3 n 0 (commitVec params.gen1.generators [claim] params.gen1.h blindClaim) tr =
        .ok ((out.2.2.2, commitVec params.gen1.generators
          [mle mul out.2.2.2 * mle f out.2.2.2 * fu + mle add out.2.2.2 * fu + mle add out.2.2.2 * mle f out.2.2.2]
          params.gen1.h out.2.2.1), tr') by
    obtain ⟨⟨proof, v, blind, ru⟩, tr', e, a1, a2, a3⟩ := h
    simp only at a1 a2 a3 e
    subst a2
    exact ⟨proof, blind, ru, tr', e, a1, a3⟩
  unfold zkPhaseTwo
  refine (Runs.ensure (by simp [hf, h0, h1])).bind fun _ tr e => ?_
  subst e
  refine (hidingRounds_run (quadRound_folds h2 (libraTwo_deg fu)) ch params.gen1 params.gen3 ((List.range n).map rands) claim
    blindClaim _ (by simpa using fun i _ => hd i) (by simpa using hok) htot _).bind fun out tr' h => ?_
  obtain ⟨proof, ru, ts, cl, blind⟩ := out
  obtain ⟨b1, b2, b3, b4, b5⟩ := h
  simp only [List.length_map, List.length_range] at b1 b2 b3 b4 b5
  rw [foldAll_tables _ _ (by rw [b1]; exact hok.2)] at b3
  obtain rfl := Option.some.inj b3
  rw [total_final _ _ (by simp)] at b4
  subst b4
  refine (Runs.orPanic (by rfl)).bind fun _ _ e => ?_
  obtain ⟨rfl, rfl⟩ := e
  refine (Runs.ensure (by simpa using hn)).bind fun _ tr e => ?_
  subst e
  exact Runs.pure ⟨b1, rfl, b5⟩

theorem evalOperators_some (gates : List Gate) (gu gv ru rv : List F) (alpha beta : F) (h : gu.length = gv.length)
    (hr : ru.length = rv.length) (hg : GatesOk gates (2 ^ gu.length) (2 ^ ru.length)) :
    evalOperators gates gu gv ru rv alpha beta =
      some (gateSum 0 gates (fun t => gWeight gu gv alpha beta t.g * (eqWeight ru t.left * eqWeight rv t.right)),
        gateSum 1 gates fun t => gWeight gu gv alpha beta t.g * (eqWeight ru t.left * eqWeight rv t.right)) := by
  refine (evalOperators_eq gates gu gv ru rv alpha beta h hr hg (0, 0)).trans ?_
  simp

/-- Without the second point (`beta = 0`) any point will do. -/
theorem evalOperators_zero (gates : List Gate) (gu gv gv' ru rv : List F) (alpha : F) (h : gu.length = gv.length)
    (h' : gu.length = gv'.length) (hr : ru.length = rv.length) (hg : GatesOk gates (2 ^ gu.length) (2 ^ ru.length)) :
    evalOperators gates gu gv ru rv alpha 0 = evalOperators gates gu gv' ru rv alpha 0 := by
  rw [evalOperators_some gates gu gv ru rv alpha 0 h hr hg, evalOperators_some gates gu gv' ru rv alpha 0 h' hr hg]
  simp only [gWeight, zero_mul]

/-- The random values of a layer have the right number of coefficients. -/
def LayerRand.Ok (r : LayerRand F) : Prop := (∀ i, (r.one i).d.length = 3) ∧ ∀ i, (r.two i).d.length = 3

theorem final_lin (gens : List G) (h : G) (x y z rx ry rz a m : F) :
    a • (commitVec gens [x] h rx + commitVec gens [y] h ry) + m • commitVec gens [z] h rz =
      commitVec gens [z * m + (x + y) * a] h (rz * m + (rx + ry) * a) := by
  have e1 := commitVec_one_lin gens h a a x y rx ry
  have e2 := commitVec_one_lin gens h 1 m (a * x + a * y) z (a * rx + a * ry) rz
  rw [smul_add, e1]
  rw [one_smul] at e2
  rw [e2, show 1 * (a * x + a * y) + m * z = z * m + (x + y) * a by ring,
    show 1 * (a * rx + a * ry) + m * rz = rz * m + (rx + ry) * a by ring]

theorem zkLayer_run (h2 : (2 : F) ≠ 0) (ch : Oracle F G) (params : Params G) (raw : List (Nat × Nat × Nat)) (v : List F)
    (n : Nat) (hn : 1 ≤ n) (gu gv gv' : List F) (alpha beta claim claimBlind : F) (h : gu.length = gv.length)
    (h' : gu.length = gv'.length) (hgv : beta = 0 ∨ gv' = gv)
    (hv : v.length = 2 ^ n) (hk : raw.length ≤ 2 ^ gu.length) (hl : ∀ g ∈ raw, Legal (2 ^ n) g)
    (hc : claim = alpha * mle (raw.map (gateValue v)) gu + beta * mle (raw.map (gateValue v)) gv)
    (rand : LayerRand F) (hr : rand.Ok) (tr : Transcript F G) :
    ∃ p ru rv tr', zkLayerProve ch params (gatesOf raw) v n gu gv alpha beta claim claimBlind rand tr =
        .ok ((p, ru, rv, mle v ru, mle v ru, mle v rv), tr') ∧ ru.length = n ∧ rv.length = n ∧
      p.x = commitVec params.gen1.generators [mle v ru] params.gen1.h rand.x ∧
      p.y = commitVec params.gen1.generators [mle v rv] params.gen1.h rand.y ∧
      zkLayerVerify ch params p (gatesOf raw) n gu gv' alpha beta
        (commitVec params.gen1.generators [claim] params.gen1.h claimBlind) tr = .ok ((ru, rv), tr') := by
  have hg := gatesOf_ok raw (2 ^ gu.length) (2 ^ n) hk hl
  obtain ⟨mul, add1, add2, e1, l1, l2, l3, _⟩ := C60_phase_one gu gv (gatesOf raw) v n alpha beta h hv hg
  obtain ⟨_, _, _, e1', hsum⟩ := C60_claim gu gv raw v n alpha beta h hv hk hl
  rw [e1] at e1'
  obtain ⟨rfl, rfl, rfl⟩ : _ ∧ _ ∧ _ := by simpa using e1'
  obtain ⟨one, blindU, ru, tr1, p1, p2, p3⟩ := phaseOne_run h2 ch params v mul add1 add2 n hn hv l1 l2 l3 claim claimBlind
    rand.one hr.1 (hc.trans hsum.symm) tr
  obtain ⟨mul', add', e2, m1, m2, _⟩ := C60_phase_two gu gv ru (gatesOf raw) v n alpha beta h hv p2 hg
  obtain ⟨_, _, _, _, _, f1, f2, f3⟩ := C60_reduction gu gv ru (gatesOf raw) v n alpha beta h hv p2 hg
  rw [e1] at f1
  obtain ⟨rfl, rfl, rfl⟩ : _ ∧ _ ∧ _ := by simpa using f1
  rw [e2] at f2
  obtain ⟨rfl, rfl⟩ : _ ∧ _ := by simpa using f2
  obtain ⟨two, blindV, rv, tr2, q1, q2, q3⟩ := phaseTwo_run h2 ch params v mul' add' (mle v ru) n hn hv m1 m2 _ blindU
    rand.two hr.2 f3 (tr1 ++ [.pt "comm_x" (commitVec params.gen1.generators [mle v ru] params.gen1.h rand.x)])
  obtain ⟨_, _, e3, hop, _⟩ := C60_operators gu gv ru rv (gatesOf raw) v n alpha beta h hv p2 q2 hg
  rw [e2] at e3
  obtain ⟨rfl, rfl⟩ : _ ∧ _ := by simpa using e3
  have hop' : evalOperators (gatesOf raw) gu gv' ru rv alpha beta = some (mle add' rv, mle mul' rv) := by
    rcases hgv with rfl | rfl
    · rw [← hop]
      exact evalOperators_zero _ _ _ _ _ _ _ h' h (p2.trans q2.symm) (by rw [p2]; exact hg)
    · exact hop
  obtain ⟨prod, tr3, r1, r2⟩ := C57_product ch params.gen1 (mle v ru) rand.x (mle v rv) rand.y rand.z (rand.b 0) (rand.b 1)
    (rand.b 2) (rand.b 3) (rand.b 4)
    (tr2 ++ [.pt "comm_y" (commitVec params.gen1.generators [mle v rv] params.gen1.h rand.y)])
  obtain ⟨eq, tr4, s1, s2⟩ := C57_equality ch params.gen1
    (mle v ru * mle v rv * mle mul' rv + (mle v ru + mle v rv) * mle add' rv)
    (rand.z * mle mul' rv + (rand.x + rand.y) * mle add' rv) blindV rand.eq tr3
  refine ⟨⟨one, two, commitVec params.gen1.generators [mle v ru] params.gen1.h rand.x,
    commitVec params.gen1.generators [mle v rv] params.gen1.h rand.y,
    commitVec params.gen1.generators [mle v ru * mle v rv] params.gen1.h rand.z, prod, eq⟩, ru, rv, tr4, ?_, p2, q2, rfl, rfl, ?_⟩
  · apply Cp.runs_eq
    unfold zkLayerProve
    refine (Runs.orPanic e1).bind fun _ _ e => ?_
    obtain ⟨rfl, rfl⟩ := e
    refine (Cp.runs_of p1).bind fun _ _ e => ?_
    obtain ⟨rfl, rfl⟩ := e
    refine (Runs.orPanic (a := mle v ru) (by rfl)).bind fun _ _ e => ?_
    obtain ⟨rfl, rfl⟩ := e
    refine (Runs.orPanic (a := mle mul ru) (by rfl)).bind fun _ _ e => ?_
    obtain ⟨rfl, rfl⟩ := e
    refine (Runs.orPanic (a := mle add1 ru) (by rfl)).bind fun _ _ e => ?_
    obtain ⟨rfl, rfl⟩ := e
    refine (Runs.orPanic (a := mle add2 ru) (by rfl)).bind fun _ _ e => ?_
    obtain ⟨rfl, rfl⟩ := e
    refine Runs.say.bind fun _ _ e => ?_
    subst e
    refine (Runs.orPanic e2).bind fun _ _ e => ?_
    obtain ⟨rfl, rfl⟩ := e
    refine (Cp.runs_of q1).bind fun _ _ e => ?_
    obtain ⟨rfl, rfl⟩ := e
    refine (Runs.orPanic (a := mle v rv) (by rfl)).bind fun _ _ e => ?_
    obtain ⟨rfl, rfl⟩ := e
    refine (Runs.orPanic (a := mle mul' rv) (by rfl)).bind fun _ _ e => ?_
    obtain ⟨rfl, rfl⟩ := e
    refine (Runs.orPanic (a := mle add' rv) (by rfl)).bind fun _ _ e => ?_
    obtain ⟨rfl, rfl⟩ := e
    refine Runs.say.bind fun _ _ e => ?_
    subst e
    refine (Cp.runs_of r1).bind fun _ _ e => ?_
    obtain ⟨rfl, rfl⟩ := e
    refine (Cp.runs_of s1).bind fun _ _ e => ?_
    obtain ⟨rfl, rfl⟩ := e
    exact Runs.pure ⟨rfl, rfl⟩
  · apply Cp.runs_eq
    unfold zkLayerVerify
    refine (Cp.runs_of (asserted_ok.2 p3)).bind fun _ _ e => ?_
    obtain ⟨rfl, rfl⟩ := e
    refine Runs.say.bind fun _ _ e => ?_
    subst e
    refine (Cp.runs_of (asserted_ok.2 q3)).bind fun _ _ e => ?_
    obtain ⟨rfl, rfl⟩ := e
    refine Runs.say.bind fun _ _ e => ?_
    subst e
    refine (Cp.runs_of r2).bind fun _ _ e => ?_
    obtain ⟨rfl, rfl⟩ := e
    refine (Runs.ensure rfl).bind fun _ _ e => ?_
    subst e
    refine (Runs.orPanic hop').bind fun _ _ e => ?_
    obtain ⟨rfl, rfl⟩ := e
    simp only [final_lin]
    have hval : mle mul' rv * mle v rv * mle v ru + mle add' rv * mle v ru + mle add' rv * mle v rv =
        mle v ru * mle v rv * mle mul' rv + (mle v ru + mle v rv) * mle add' rv := by ring
    rw [hval]
    refine (Cp.runs_of s2).bind fun _ _ e => ?_
    obtain ⟨rfl, rfl⟩ := e
    refine (Runs.ensure rfl).bind fun _ _ e => ?_
    subst e
    exact Runs.pure ⟨rfl, rfl⟩

/-- All layers have at least two values (the top one excepted). -/
def Wide (items : List (List Gate × List F × Nat)) : Prop := ∀ x ∈ items, 1 ≤ x.2.2

theorem zkLayers_run (h2 : (2 : F) ≠ 0) (ch : Oracle F G) (params : Params G) (rands : Nat → LayerRand F)
    (hr : ∀ i, (rands i).Ok) (items : List (List Gate × List F × Nat)) (hne : items ≠ []) (hwide : Wide items)
    (i : Nat) (top bottom gu gv gv' : List F) (alpha beta resultU resultV claimBlind : F) (h : gu.length = gv.length)
    (h' : gu.length = gv'.length) (hgv : beta = 0 ∨ gv' = gv)
    (hk : top.length ≤ 2 ^ gu.length) (hch : Chain top items bottom)
    (hc : alpha * resultU + beta * resultV = alpha * mle top gu + beta * mle top gv) (tr : Transcript F G) :
    ∃ ps ru rv bx by' tr', zkLayersProve ch params rands items i gu gv resultU resultV alpha beta claimBlind tr =
        .ok ((ps, ⟨ru, rv, mle bottom ru, mle bottom rv, bx, by'⟩), tr') ∧
      ps.length = items.length ∧ bottom.length = 2 ^ ru.length ∧ ru.length = rv.length ∧ 1 ≤ ru.length ∧
      zkLayersVerify ch params ps (items.map fun x => (x.1, x.2.2)) gu gv' alpha beta
          (commitVec params.gen1.generators [alpha * resultU + beta * resultV] params.gen1.h claimBlind) tr =
        .ok ((ru, rv, commitVec params.gen1.generators [mle bottom ru] params.gen1.h bx,
          commitVec params.gen1.generators [mle bottom rv] params.gen1.h by'), tr') := by
  induction items generalizing i top gu gv gv' alpha beta resultU resultV claimBlind tr with
  | nil => exact absurd rfl hne
  | cons x rest ih =>
    obtain ⟨gates, v, n⟩ := x
    obtain ⟨⟨raw, rfl, hv, hl, rfl⟩, hrest⟩ := hch
    simp only at hv hl hrest
    have hn : 1 ≤ n := hwide (gatesOf raw, v, n) List.mem_cons_self
    obtain ⟨p, ru, rv, tr', a1, a2, a3, a4, a5, a6⟩ := zkLayer_run h2 ch params raw v n hn gu gv gv' alpha beta
      (alpha * resultU + beta * resultV) claimBlind h h' hgv hv (by simpa using hk) hl hc (rands i) (hr i) tr
    cases rest with
    | nil =>
      obtain rfl := hrest
      refine ⟨[p], ru, rv, (rands i).x, (rands i).y, tr', ?_, rfl, by rw [hv, a2], a2.trans a3.symm, by omega, ?_⟩
      · apply Cp.runs_eq
        unfold zkLayersProve
        refine (Cp.runs_of a1).bind fun x t e => ?_
        obtain ⟨rfl, rfl⟩ := e
        exact Runs.pure ⟨rfl, rfl⟩
      · apply Cp.runs_eq
        simp only [List.map_cons, List.map_nil]
        unfold zkLayersVerify
        refine (Cp.runs_of a6).bind fun x t e => ?_
        obtain ⟨rfl, rfl⟩ := e
        rw [← a4, ← a5]
        exact Runs.pure ⟨rfl, rfl⟩
    | cons y rest =>
      obtain ⟨ps, ru', rv', bx, by', tr'', b1, b2, b3, b4, b5, b6⟩ := ih (by simp) (fun x hx => hwide x (by simp [hx])) (i + 1)
        v ru rv rv (ch (tr' ++ [.chal "challenge_alpha"]))
        (ch (tr' ++ [.chal "challenge_alpha"] ++ [.chal "challenge_beta"])) (mle v ru) (mle v rv)
        (ch (tr' ++ [.chal "challenge_alpha"]) * (rands i).x +
          ch (tr' ++ [.chal "challenge_alpha"] ++ [.chal "challenge_beta"]) * (rands i).y)
        (a2.trans a3.symm) (a2.trans a3.symm) (Or.inr rfl)
        (by rw [hv, a2]) hrest rfl (tr' ++ [.chal "challenge_alpha"] ++ [.chal "challenge_beta"])
      refine ⟨p :: ps, ru', rv', bx, by', tr'', ?_, by simpa using b2, b3, b4, b5, ?_⟩
      · apply Cp.runs_eq
        unfold zkLayersProve
        refine (Cp.runs_of a1).bind fun x t e => ?_
        obtain ⟨rfl, rfl⟩ := e
        refine Runs.challenge.bind fun x t e => ?_
        obtain ⟨rfl, rfl⟩ := e
        refine Runs.challenge.bind fun x t e => ?_
        obtain ⟨rfl, rfl⟩ := e
        refine (Cp.runs_of b1).bind fun x t e => ?_
        obtain ⟨rfl, rfl⟩ := e
        exact Runs.pure ⟨rfl, rfl⟩
      · cases ps with
        | nil => simp at b2
        | cons q qs =>
          apply Cp.runs_eq
          rw [List.map_cons]
          unfold zkLayersVerify
          refine (Cp.runs_of a6).bind fun x t e => ?_
          obtain ⟨rfl, rfl⟩ := e
          refine Runs.challenge.bind fun x t e => ?_
          obtain ⟨rfl, rfl⟩ := e
          refine Runs.challenge.bind fun x t e => ?_
          obtain ⟨rfl, rfl⟩ := e
          rw [a4, a5, commitVec_one_lin]
          exact Cp.runs_of b6

end Zkp.Lz
