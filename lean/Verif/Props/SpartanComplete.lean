/- C79: proofs of Spartan's NIZK prover are accepted. -/
import Verif.Proof.SpartanProver
import Verif.Props.SpartanSound
import Verif.Props.SpartanR1cs

namespace Zkp.Spartan

open Zkp.Ml Zkp.Sc Zkp.Cp

set_option linter.unusedSectionVars false
set_option linter.unusedSimpArgs false

variable {F : Type} [Field F] {G : Type} [AddCommGroup G] [Module F G] [DecidableEq F] [DecidableEq G]

/-- As many random scalars as the prover draws. -/
structure SatRand.Shape (rand : SatRand F) (nx m : Nat) : Prop where
  witness : rand.witness.length = 2 ^ (m / 2)
  one : rand.one.length = nx
  oneD : ∀ x ∈ rand.one, x.d.length = 4
  two : rand.two.length = m + 1
  twoD : ∀ x ∈ rand.two, x.d.length = 3
  bullet : rand.bullet.length = m - m / 2

theorem padValues_inv {t : Nat} {values x : List F} {tr tr' : Transcript F G} (h : padValues t values tr = .ok (x, tr')) :
    values.length ≤ t ∧ x = values ++ List.replicate (t - values.length) 0 ∧ tr = tr' := by
  unfold padValues at h
  obtain ⟨_, _, h1, h⟩ := bind_inv h
  obtain ⟨hl, rfl⟩ := ensure_inv h1
  obtain ⟨rfl, rfl⟩ := pure_inv h
  exact ⟨by simpa using hl, rfl, rfl⟩

theorem eqTau_eq (rx tau : List F) (h : rx.length = tau.length) : evalEqXY rx tau = some (mle (evalEq tau) rx) := by
  rw [C46_evalEqXY, if_pos h]
  congr 1
  unfold mle
  rw [← h]
  refine Finset.sum_congr rfl fun i hi => ?_
  have hi := Finset.mem_range.1 hi
  rw [getD_map_range _ _ hi, evalEq_getD _ _ (by rw [← h]; exact hi)]
  ring

set_option maxHeartbeats 1600000 in
/-- A finished run of the prover is accepted, and both ends have the same transcript. -/
theorem sat_complete (h2 : (2 : F) ≠ 0) (h3 : (3 : F) ≠ 0) (ch : Oracle F G) (params : SatParams G)
    (hs1 : params.pc.gen1 = params.gen1) (hh : params.pc.genN.h = params.gen1.h) (s : Inst F) (hf : s.Fits)
    (hla : s.a.length = s.numConstraints) (hlb : s.b.length = s.numConstraints) (hlc : s.c.length = s.numConstraints)
    (cs : CS F) (inputs : List F) (hz : ZerosLast inputs) (hin : cs.inputs = 1 :: inputs)
    (hsat : s.Sat (assign (fun i =>
      (zTab (cs.aux ++ List.replicate (s.t - cs.aux.length) 0) inputs (Nat.clog 2 s.t)).getD i 0) inputs))
    (rand : SatRand F) (hr : rand.Shape (Nat.clog 2 s.numConstraints) (Nat.clog 2 s.t))
    (proof : SatProof F G) (rx ry : List F) (tr tr' : Transcript F G)
    (hp : satProve ch params s cs rand tr = .ok ((proof, rx, ry), tr')) :
    ∃ a b c, evaluateMle s.a rx ry = some a ∧ evaluateMle s.b rx ry = some b ∧ evaluateMle s.c rx ry = some c ∧
      satVerify ch params s inputs proof (a, b, c) tr = .ok ((rx, ry), tr') ∧
      rx.length = Nat.clog 2 s.numConstraints ∧ ry.length = Nat.clog 2 s.t + 1 := by
  obtain ⟨m, hm⟩ : ∃ m, m = Nat.clog 2 s.t := ⟨_, rfl⟩
  obtain ⟨nx, hnx⟩ : ∃ nx, nx = Nat.clog 2 s.numConstraints := ⟨_, rfl⟩
  obtain ⟨w, hw⟩ : ∃ w, w = cs.aux ++ List.replicate (s.t - cs.aux.length) 0 := ⟨_, rfl⟩
  obtain ⟨z, hzd⟩ : ∃ z, z = assign (fun i => (zTab w inputs m).getD i 0) inputs := ⟨_, rfl⟩
  have ht : 2 ^ m = s.t := by rw [hm, clog_t]
  unfold Inst.Fits at hf
  unfold satProve at hp
  unfold satVerify
  simp only [← hm, ← hnx, ← hw, ← hzd, hs1] at hf hp hr hsat ⊢
  obtain ⟨_, tra, h1, hp⟩ := bind_inv hp
  obtain ⟨hpad, ea⟩ := ensure_inv h1
  subst ea
  obtain ⟨aux, trb, h1b, hp⟩ := bind_inv hp
  obtain ⟨hal, haux, ea⟩ := padValues_inv h1b
  subst ea
  obtain ⟨inp, trc, h1c, hp⟩ := bind_inv hp
  obtain ⟨hil, hinp, ea⟩ := padValues_inv h1c
  subst ea
  obtain ⟨_, trd, h1d, hp⟩ := bind_inv hp
  have e1 := say_inv h1d
  rw [← hw] at haux
  rw [haux] at hp
  have hwl : w.length = 2 ^ m := by rw [hw, ht]; simp; omega
  have hil' : inputs.length + 1 ≤ 2 ^ m := by rw [ht]; rw [hin] at hil; simpa using hil
  have hinp' : inp = 1 :: inputs ++ List.replicate (2 ^ m - inputs.length - 1) 0 := by
    rw [hinp, hin, ht]; simp [Nat.sub_sub]
  have hzt : w ++ inp = zTab w inputs m := by rw [hinp']; rfl
  have hpow : s.numConstraints = 2 ^ nx := by
    rw [hnx, show s.numConstraints = padTo cs.constraints.length by simpa using hpad]
    unfold padTo
    rw [Nat.clog_pow 2 _ (by decide)]
  rw [hzt] at hp
  rw [hinp', ht] at e1
  obtain ⟨com, tr2, hcom, hp⟩ := bind_inv hp
  obtain ⟨_, _, h1, hp⟩ := bind_inv hp
  have e2 := say_inv h1
  clear h1
  have htr2 : tr2 = tr ++ [Msg.frs "r1cs_input" (1 :: inputs ++ List.replicate (s.t - inputs.length - 1) 0)] := by
    unfold packCommit at hcom
    obtain ⟨_, _, h1, hcom⟩ := bind_inv hcom
    obtain ⟨_, rfl⟩ := ensure_inv h1
    obtain ⟨_, _, h1, hcom⟩ := bind_inv hcom
    obtain ⟨_, rfl⟩ := ensure_inv h1
    obtain ⟨_, rfl⟩ := pure_inv hcom
    exact e1.symm
  obtain ⟨tau, tr3, htau, hp⟩ := bind_inv hp
  have htaul : tau.length = nx := (challenges_at htau).2
  rw [matrixVec _ _ _ _ _ hwl hil' hf.1 (by rw [hla, hpow]), matrixVec _ _ _ _ _ hwl hil' hf.2.1 (by rw [hlb, hpow]),
    matrixVec _ _ _ _ _ hwl hil' hf.2.2 (by rw [hlc, hpow]), ← hzd] at hp
  obtain ⟨_, _, h1, hp⟩ := bind_inv hp
  obtain ⟨ea, rfl⟩ := orPanic_inv h1
  obtain rfl := Option.some.inj ea
  clear ea h1
  obtain ⟨_, _, h1, hp⟩ := bind_inv hp
  obtain ⟨ea, rfl⟩ := orPanic_inv h1
  obtain rfl := Option.some.inj ea
  clear ea h1
  obtain ⟨_, _, h1, hp⟩ := bind_inv hp
  obtain ⟨ea, rfl⟩ := orPanic_inv h1
  obtain rfl := Option.some.inj ea
  clear ea h1
  -- the first sum-check
  obtain ⟨⟨p1, rx', ⟨va, vb, vc, et⟩, blind1⟩, tr4, hone, hp⟩ := bind_inv hp
  simp only at hp
  obtain ⟨p1', rx'', blind1', tr4', ho, hrxl, hv1⟩ := C52_spartan_one h2 h3 ch params (rowTab s.a z nx) (rowTab s.b z nx)
    (rowTab s.c z nx) (evalEq tau) rand.one hr.oneD (by simp [rowTab, hr.one]) (by simp [rowTab, hr.one])
    (by simp [rowTab, hr.one]) (by rw [evalEq_length, htaul, hr.one]) 0 (by
      rw [hr.one]
      symm
      refine Finset.sum_eq_zero fun j hj => ?_
      have hj := Finset.mem_range.1 hj
      unfold rowTab
      rw [getD_map_range _ _ hj, getD_map_range _ _ hj, getD_map_range _ _ hj, hsat.2 j (by rw [hpow]; exact hj)]
      ring) tr3
  rw [ho] at hone
  obtain ⟨⟨rfl, rfl, ⟨rfl, rfl, rfl, rfl⟩, rfl⟩, rfl⟩ : (p1' = p1 ∧ rx'' = rx' ∧ (mle (rowTab s.a z nx) rx'' = va ∧
      mle (rowTab s.b z nx) rx'' = vb ∧ mle (rowTab s.c z nx) rx'' = vc ∧ mle (evalEq tau) rx'' = et) ∧
      blind1' = blind1) ∧ tr4' = tr4 := by
    simpa only [Except.ok.injEq, Prod.mk.injEq] using hone
  clear hone ho
  rw [hr.one] at hrxl hv1
  obtain ⟨va, hva⟩ : ∃ v, v = mle (rowTab s.a z nx) rx'' := ⟨_, rfl⟩
  obtain ⟨vb, hvb⟩ : ∃ v, v = mle (rowTab s.b z nx) rx'' := ⟨_, rfl⟩
  obtain ⟨vc, hvc⟩ : ∃ v, v = mle (rowTab s.c z nx) rx'' := ⟨_, rfl⟩
  obtain ⟨et, het⟩ : ∃ v, v = mle (evalEq tau) rx'' := ⟨_, rfl⟩
  rw [← hva, ← hvb, ← hvc, ← het] at hp hv1
  -- knowledge and product
  obtain ⟨⟨know, vcC⟩, tr5, hk, hp⟩ := bind_inv hp
  obtain ⟨know', tr5', hk1, hk2⟩ := C57_knowledge ch params.gen1 vc rand.c rand.t1 rand.t2 tr4'
  rw [hk1] at hk
  obtain ⟨⟨rfl, rfl⟩, rfl⟩ : (know' = know ∧ _ = vcC) ∧ tr5' = tr5 := by
    simpa only [Except.ok.injEq, Prod.mk.injEq] using hk
  clear hk hk1
  obtain ⟨⟨prod, vaC, vbC, prC⟩, tr6, hk, hp⟩ := bind_inv hp
  obtain ⟨prod', tr6', hk1, hpr2⟩ := C57_product ch params.gen1 va rand.a vb rand.b rand.prod rand.b1 rand.b2 rand.b3
    rand.b4 rand.b5 tr5'
  rw [hk1] at hk
  obtain ⟨⟨rfl, rfl, rfl, rfl⟩, rfl⟩ : (prod' = prod ∧ _ = vaC ∧ _ = vbC ∧ _ = prC) ∧ tr6' = tr6 := by
    simpa only [Except.ok.injEq, Prod.mk.injEq] using hk
  clear hk hk1
  simp only at hp
  obtain ⟨_, tr7, hs7, hp⟩ := bind_inv hp
  obtain ⟨_, tr8, hs8, hp⟩ := bind_inv hp
  obtain ⟨_, tr9, hs9, hp⟩ := bind_inv hp
  obtain ⟨_, tr10, hs10, hp⟩ := bind_inv hp
  -- the first equality
  obtain ⟨eq1, tr11, hk, hp⟩ := bind_inv hp
  obtain ⟨eq1', tr11', hk1, heq1⟩ := C57_equality ch params.gen1 (et * (va * vb - vc)) (et * (rand.prod - rand.c)) blind1'
    rand.eq1 tr10
  rw [hk1] at hk
  obtain ⟨rfl, rfl⟩ : eq1' = eq1 ∧ tr11' = tr11 := by simpa only [Except.ok.injEq, Prod.mk.injEq] using hk
  clear hk hk1
  obtain ⟨ra, tr12, hra, hp⟩ := bind_inv hp
  obtain ⟨rb, tr13, hrb, hp⟩ := bind_inv hp
  obtain ⟨rc, tr14, hrc, hp⟩ := bind_inv hp
  rw [zTab_length w inputs m hwl hil'] at hp
  rw [← hrxl] at hf
  rw [combineColumns_eq s rx'' m ra rb rc hf.1 hf.2.1 hf.2.2] at hp
  obtain ⟨_, _, h1, hp⟩ := bind_inv hp
  obtain ⟨ea, rfl⟩ := orPanic_inv h1
  obtain rfl := Option.some.inj ea
  clear ea h1
  -- the second sum-check
  obtain ⟨⟨p2, ry', ⟨vs, vz⟩, blind2⟩, tr15, htwo, hp⟩ := bind_inv hp
  simp only at hp
  obtain ⟨p2', ry'', blind2', tr15', ho, hryl, hv2⟩ := C52_spartan_two h2 ch params (combTab s rx'' m ra rb rc)
    (zTab w inputs m) rand.two (by intro h; have := hr.two; rw [h] at this; simp at this) hr.twoD
    (by rw [combTab_length, hr.two]) (by rw [zTab_length w inputs m hwl hil', hr.two])
    (va * ra + vb * rb + vc * rc) (rand.a * ra + rand.b * rb + rand.c * rc) (by
      have := total_two s w inputs m nx hwl hil' (hrxl ▸ hf.1) (hrxl ▸ hf.2.1) (hrxl ▸ hf.2.2) rx'' hrxl ra rb rc
      rw [← hzd, ← hva, ← hvb, ← hvc] at this
      unfold total at this
      rw [tableLen_eq (tabsTwo_ok s w inputs m hwl hil' rx'' ra rb rc)] at this
      rw [hr.two]
      simp only [spartanTwo, cells, List.getD_cons_zero, List.getD_cons_succ] at this
      rw [this]; ring) tr14
  rw [ho] at htwo
  obtain ⟨⟨rfl, rfl, ⟨rfl, rfl⟩, rfl⟩, rfl⟩ : (p2' = p2 ∧ ry'' = ry' ∧ (mle (combTab s rx'' m ra rb rc) ry'' = vs ∧
      mle (zTab w inputs m) ry'' = vz) ∧ blind2' = blind2) ∧ tr15' = tr15 := by
    simpa only [Except.ok.injEq, Prod.mk.injEq] using htwo
  clear htwo ho
  rw [hr.two] at hryl hv2
  obtain ⟨y0, ys, hys⟩ : ∃ y0 ys, ry'' = y0 :: ys := by
    cases ry'' with
    | nil => simp at hryl
    | cons y0 ys => exact ⟨_, _, rfl⟩
  have hysl : ys.length = m := by rw [hys] at hryl; simpa using hryl
  obtain ⟨y0', _, h1, hp⟩ := bind_inv hp
  obtain ⟨ea, rfl⟩ := orPanic_inv h1
  obtain rfl : y0 = y0' := by rw [hys] at ea; simpa using ea
  clear ea h1
  obtain ⟨_, _, h1, hp⟩ := bind_inv hp
  obtain ⟨ea, rfl⟩ := orPanic_inv h1
  rw [hys, List.tail_cons, C46_evalValue, if_pos (by rw [hwl, hysl])] at ea
  obtain rfl := Option.some.inj ea
  clear ea h1
  obtain ⟨⟨dot, cRy⟩, tr16, hdot, hp⟩ := bind_inv hp
  simp only at hp
  rw [hys, List.tail_cons] at hdot
  obtain ⟨hcRy, hdv⟩ := C57_evaluation_spartan ch params.pc (by rw [hs1, hh]) w rand.witness ys
    (by
      intro h
      have : 0 < 2 ^ (m / 2) := by positivity
      rw [← hr.witness, h] at this
      simp at this) com _ _ hcom _ _ _ _ _ _ _ _ _ hdot
  obtain ⟨vs, hvs⟩ : ∃ v, v = mle (combTab s rx'' m ra rb rc) ry'' := ⟨_, rfl⟩
  obtain ⟨vz, hvz⟩ : ∃ v, v = mle (zTab w inputs m) ry'' := ⟨_, rfl⟩
  rw [← hvs, ← hvz] at hp hv2
  obtain ⟨eq2, tr17, hk, hp⟩ := bind_inv hp
  obtain ⟨eq2', tr17', hk1, heq2⟩ := C57_equality ch params.gen1 (vs * vz) ((1 - y0) * rand.eval * vs) blind2' rand.eq2 tr16
  rw [hk1] at hk
  obtain ⟨rfl, rfl⟩ : eq2' = eq2 ∧ tr17' = tr17 := by simpa only [Except.ok.injEq, Prod.mk.injEq] using hk
  clear hk hk1
  obtain ⟨he, rfl⟩ := pure_inv hp
  obtain ⟨rfl, rfl, rfl⟩ : _ = proof ∧ rx'' = rx ∧ ry'' = ry := by simpa only [Prod.mk.injEq] using he
  clear he hp
  obtain ⟨a, ha⟩ : ∃ a, evaluateMle s.a rx'' ry'' = some a := ⟨_, C46_evaluateMle s.a rx'' ry'' m hryl hf.1⟩
  obtain ⟨b, hb⟩ : ∃ a, evaluateMle s.b rx'' ry'' = some a := ⟨_, C46_evaluateMle s.b rx'' ry'' m hryl hf.2.1⟩
  obtain ⟨c, hc⟩ : ∃ a, evaluateMle s.c rx'' ry'' = some a := ⟨_, C46_evaluateMle s.c rx'' ry'' m hryl hf.2.2⟩
  refine ⟨a, b, c, ha, hb, hc, ?_, hrxl, hryl⟩
  -- the verifier
  have hgen : ∀ v b : F, commitVec params.gen1.generators [v] params.gen1.h b =
      v • commitVec params.gen1.generators [1] params.gen1.h (0 : F) + b • params.gen1.h := by
    intro v b
    unfold commitVec
    cases params.gen1.generators with
    | nil => simp [msm]
    | cons g gs => simp [msm]
  apply runs_eq
  refine (Runs.ensure (by simpa [← ht] using hil')).bind fun _ _ e => ?_
  subst e
  refine Runs.say.bind fun _ _ e => ?_
  rw [← htr2] at e
  subst e
  refine Runs.say.bind fun _ _ e => ?_
  rw [e2] at e
  subst e
  refine (runs_of htau).bind fun _ _ e => ?_
  obtain ⟨rfl, rfl⟩ := e
  refine (runs_of hv1).bind fun _ _ e => ?_
  obtain ⟨rfl, rfl⟩ := e
  refine (runs_of hk2).bind fun _ _ e => ?_
  obtain ⟨rfl, rfl⟩ := e
  refine (Runs.ensure rfl).bind fun _ _ e => ?_
  subst e
  refine (runs_of hpr2).bind fun _ _ e => ?_
  obtain ⟨rfl, rfl⟩ := e
  refine (Runs.ensure rfl).bind fun _ _ e => ?_
  subst e
  refine (runs_of hs7).bind fun _ _ e => ?_
  obtain ⟨_, rfl⟩ := e
  refine (runs_of hs8).bind fun _ _ e => ?_
  obtain ⟨_, rfl⟩ := e
  refine (runs_of hs9).bind fun _ _ e => ?_
  obtain ⟨_, rfl⟩ := e
  refine (runs_of hs10).bind fun _ _ e => ?_
  obtain ⟨_, rfl⟩ := e
  refine (Runs.orPanic (eqTau_eq rx'' tau (by rw [hrxl, htaul]))).bind fun _ _ e => ?_
  obtain ⟨rfl, rfl⟩ := e
  rw [← het]
  have el : et • (commitVec params.gen1.generators [va * vb] params.gen1.h rand.prod -
      commitVec params.gen1.generators [vc] params.gen1.h rand.c) =
      commitVec params.gen1.generators [et * (va * vb - vc)] params.gen1.h (et * (rand.prod - rand.c)) := by
    rw [hgen (va * vb), hgen vc, hgen (et * (va * vb - vc))]; module
  rw [← el] at heq1
  refine (runs_of heq1).bind fun _ _ e => ?_
  obtain ⟨rfl, rfl⟩ := e
  refine (Runs.ensure rfl).bind fun _ _ e => ?_
  subst e
  refine (runs_of hra).bind fun _ _ e => ?_
  obtain ⟨rfl, rfl⟩ := e
  refine (runs_of hrb).bind fun _ _ e => ?_
  obtain ⟨rfl, rfl⟩ := e
  refine (runs_of hrc).bind fun _ _ e => ?_
  obtain ⟨rfl, rfl⟩ := e
  have el : ra • commitVec params.gen1.generators [va] params.gen1.h rand.a +
      rb • commitVec params.gen1.generators [vb] params.gen1.h rand.b +
      rc • commitVec params.gen1.generators [vc] params.gen1.h rand.c =
      commitVec params.gen1.generators [va * ra + vb * rb + vc * rc] params.gen1.h
        (rand.a * ra + rand.b * rb + rand.c * rc) := by
    rw [hgen va, hgen vb, hgen vc, hgen (va * ra + vb * rb + vc * rc)]; module
  rw [← el] at hv2
  refine (runs_of hv2).bind fun _ _ e => ?_
  obtain ⟨rfl, rfl⟩ := e
  simp only [hys, List.tail_cons] at hdv ⊢
  refine (runs_of hdv).bind fun _ _ e => ?_
  obtain ⟨rfl, rfl⟩ := e
  refine (Runs.ensure rfl).bind fun _ _ e => ?_
  subst e
  refine (Runs.orPanic (a := y0) rfl).bind fun y1 _ e => ?_
  obtain ⟨ey, rfl⟩ := e
  rw [ey]
  have hsv : sparseEvaluateValue (1 :: inputs ++ List.replicate (2 ^ ys.length - inputs.length - 1) 0) ys =
      mle (1 :: inputs ++ List.replicate (2 ^ m - inputs.length - 1) 0) ys := by
    rw [hysl]
    exact C45_inputs inputs _ ys hz (by rw [hysl]; omega)
  rw [hsv]
  have hcomb := mle_combTab s rx'' ry'' m ra rb rc a b c hryl hf.1 hf.2.1 hf.2.2 ha hb hc
  rw [hys, mle_zTab w inputs m hwl _ ys hysl] at hvz
  rw [hs1] at hcRy
  have el : (a * ra + b * rb + c * rc) • ((1 - y0) • cRy + y0 • commitVec params.gen1.generators
      [mle (1 :: inputs ++ List.replicate (2 ^ m - inputs.length - 1) 0) ys] params.gen1.h (0 : F)) =
      commitVec params.gen1.generators [vs * vz] params.gen1.h ((1 - y0) * rand.eval * vs) := by
    rw [← hcomb, ← hvs, hcRy, hgen (mle w ys), hgen (mle (_ ++ _) ys), hgen (vs * vz), hvz]; module
  rw [← el] at heq2
  rw [mul_comm vz vs]
  refine (runs_of heq2).bind fun _ _ e => ?_
  obtain ⟨rfl, rfl⟩ := e
  refine (Runs.ensure rfl).bind fun _ _ e => ?_
  subst e
  exact Runs.pure ⟨rfl, rfl⟩

theorem padValues_runs (t : Nat) (values : List F) (h : values.length ≤ t) (tr : Transcript F G) :
    Runs (padValues t values) tr fun x _ => x = values ++ List.replicate (t - values.length) 0 := by
  unfold padValues
  exact (Runs.ensure (by simpa using h)).bind fun _ _ _ => Runs.pure rfl

set_option maxHeartbeats 1600000 in
/-- The prover finishes if no challenge is zero. -/
theorem satProve_runs (h2 : (2 : F) ≠ 0) (h3 : (3 : F) ≠ 0) (ch : Oracle F G) (hch : ∀ t, ch t ≠ 0) (params : SatParams G)
    (h1 : params.pc.gen1.generators ≠ []) (s : Inst F)
    (hg : 2 ^ (Nat.clog 2 s.t - Nat.clog 2 s.t / 2) ≤ params.pc.genN.generators.length) (hf : s.Fits)
    (hla : s.a.length = s.numConstraints) (hlb : s.b.length = s.numConstraints) (hlc : s.c.length = s.numConstraints)
    (cs : CS F) (hpad : s.numConstraints = padTo cs.constraints.length) (hal : cs.aux.length ≤ s.t)
    (hil : cs.inputs.length ≤ s.t) (inputs : List F) (hin : cs.inputs = 1 :: inputs)
    (hsat : s.Sat (assign (fun i =>
      (zTab (cs.aux ++ List.replicate (s.t - cs.aux.length) 0) inputs (Nat.clog 2 s.t)).getD i 0) inputs))
    (rand : SatRand F) (hr : rand.Shape (Nat.clog 2 s.numConstraints) (Nat.clog 2 s.t)) (tr : Transcript F G) :
    Runs (satProve ch params s cs rand) tr fun _ _ => True := by
  obtain ⟨m, hm⟩ : ∃ m, m = Nat.clog 2 s.t := ⟨_, rfl⟩
  obtain ⟨nx, hnx⟩ : ∃ nx, nx = Nat.clog 2 s.numConstraints := ⟨_, rfl⟩
  obtain ⟨w, hw⟩ : ∃ w, w = cs.aux ++ List.replicate (s.t - cs.aux.length) 0 := ⟨_, rfl⟩
  obtain ⟨z, hzd⟩ : ∃ z, z = assign (fun i => (zTab w inputs m).getD i 0) inputs := ⟨_, rfl⟩
  have ht : 2 ^ m = s.t := by rw [hm, clog_t]
  have hwl : w.length = 2 ^ m := by rw [hw, ht]; simp; omega
  have hil' : inputs.length + 1 ≤ 2 ^ m := by rw [ht]; rw [hin] at hil; simpa using hil
  have hpow : s.numConstraints = 2 ^ nx := by
    rw [hnx, hpad]
    unfold padTo
    rw [Nat.clog_pow 2 _ (by decide)]
  unfold Inst.Fits at hf
  unfold satProve
  simp only [← hm, ← hnx, ← hw, ← hzd] at hf hr hsat hg ⊢
  refine (Runs.ensure (by simpa using hpad)).bind fun _ _ _ => ?_
  refine (padValues_runs _ _ hal _).bind fun aux _ e => ?_
  rw [← hw] at e
  rw [e]
  refine (padValues_runs _ _ hil _).bind fun inp _ e => ?_
  have hzt : w ++ inp = zTab w inputs m := by rw [e, hin, ← ht]; simp [zTab, Nat.sub_sub]
  rw [hzt]
  refine Runs.say.bind fun _ tr0 _ => ?_
  have hpc : Runs (packCommit params.pc.genN.generators params.pc.genN.h w rand.witness) tr0 fun _ _ => True := by
    unfold packCommit
    have hsz : Nat.clog 2 w.length = m := by rw [hwl, Nat.clog_pow 2 m (by decide)]
    rw [hsz]
    refine (Runs.ensure (by rw [hwl, ← pow_add]; simp; omega)).bind fun _ _ _ => ?_
    refine (Runs.ensure (by simpa using hr.witness)).bind fun _ _ _ => ?_
    exact Runs.pure trivial
  refine hpc.bind fun com tr1 _ => ?_
  refine Runs.say.bind fun _ tr2 _ => ?_
  obtain ⟨tau, tr3, htau, _⟩ := Succeeds.challenges ch "challenge_tau" nx tr2
  have htaul : tau.length = nx := (challenges_at htau).2
  refine (runs_of htau).bind fun _ _ e => ?_
  obtain ⟨rfl, rfl⟩ := e
  refine (Runs.orPanic (matrixVec _ _ _ _ _ hwl hil' hf.1 (by rw [hla, hpow]))).bind fun _ _ e => ?_
  obtain ⟨rfl, rfl⟩ := e
  refine (Runs.orPanic (matrixVec _ _ _ _ _ hwl hil' hf.2.1 (by rw [hlb, hpow]))).bind fun _ _ e => ?_
  obtain ⟨rfl, rfl⟩ := e
  refine (Runs.orPanic (matrixVec _ _ _ _ _ hwl hil' hf.2.2 (by rw [hlc, hpow]))).bind fun _ tr3 e => ?_
  obtain ⟨rfl, _⟩ := e
  rw [← hzd]
  obtain ⟨p1, rx, blind1, tr4, ho, hrxl, _⟩ := C52_spartan_one h2 h3 ch params (rowTab s.a z nx) (rowTab s.b z nx)
    (rowTab s.c z nx) (evalEq tau) rand.one hr.oneD (by simp [rowTab, hr.one]) (by simp [rowTab, hr.one])
    (by simp [rowTab, hr.one]) (by rw [evalEq_length, htaul, hr.one]) 0 (by
      rw [hr.one]
      symm
      refine Finset.sum_eq_zero fun j hj => ?_
      have hj := Finset.mem_range.1 hj
      unfold rowTab
      rw [getD_map_range _ _ hj, getD_map_range _ _ hj, getD_map_range _ _ hj, hsat.2 j (by rw [hpow]; exact hj)]
      ring) tr3
  rw [hr.one] at hrxl
  refine (runs_of ho).bind fun _ _ e => ?_
  obtain ⟨rfl, rfl⟩ := e
  obtain ⟨_, _, hk, _⟩ := C57_knowledge ch params.gen1 (mle (rowTab s.c z nx) rx) rand.c rand.t1 rand.t2 tr4
  refine (runs_of hk).bind fun _ tr5 e => ?_
  obtain ⟨rfl, _⟩ := e
  obtain ⟨_, _, hk, _⟩ := C57_product ch params.gen1 (mle (rowTab s.a z nx) rx) rand.a (mle (rowTab s.b z nx) rx) rand.b
    rand.prod rand.b1 rand.b2 rand.b3 rand.b4 rand.b5 tr5
  refine (runs_of hk).bind fun _ tr6 e => ?_
  obtain ⟨rfl, _⟩ := e
  refine Runs.say.bind fun _ _ _ => Runs.say.bind fun _ _ _ => Runs.say.bind fun _ _ _ => Runs.say.bind fun _ _ _ => ?_
  obtain ⟨_, _, hk, _⟩ := C57_equality ch params.gen1 _ _ _ rand.eq1 _
  refine (runs_of hk).bind fun _ _ _ => ?_
  refine Runs.challenge.bind fun ra _ _ => Runs.challenge.bind fun rb _ _ => Runs.challenge.bind fun rc tr14 _ => ?_
  rw [zTab_length w inputs m hwl hil']
  rw [← hrxl] at hf
  refine (Runs.orPanic (combineColumns_eq s rx m ra rb rc hf.1 hf.2.1 hf.2.2)).bind fun _ tr14 e => ?_
  obtain ⟨rfl, _⟩ := e
  obtain ⟨p2, ry, blind2, tr15, ho, hryl, _⟩ := C52_spartan_two h2 ch params (combTab s rx m ra rb rc)
    (zTab w inputs m) rand.two (by intro h; have := hr.two; rw [h] at this; simp at this) hr.twoD
    (by rw [combTab_length, hr.two]) (by rw [zTab_length w inputs m hwl hil', hr.two])
    (mle (rowTab s.a z nx) rx * ra + mle (rowTab s.b z nx) rx * rb + mle (rowTab s.c z nx) rx * rc)
    (rand.a * ra + rand.b * rb + rand.c * rc) (by
      have := total_two s w inputs m nx hwl hil' (hrxl ▸ hf.1) (hrxl ▸ hf.2.1) (hrxl ▸ hf.2.2) rx hrxl ra rb rc
      rw [← hzd] at this
      unfold total at this
      rw [tableLen_eq (tabsTwo_ok s w inputs m hwl hil' rx ra rb rc)] at this
      rw [hr.two]
      simp only [spartanTwo, cells, List.getD_cons_zero, List.getD_cons_succ] at this
      rw [this]; ring) tr14
  rw [hr.two] at hryl
  refine (runs_of ho).bind fun _ _ e => ?_
  obtain ⟨rfl, rfl⟩ := e
  obtain ⟨y0, ys, rfl⟩ : ∃ y0 ys, ry = y0 :: ys := by
    cases ry with
    | nil => simp at hryl
    | cons y0 ys => exact ⟨_, _, rfl⟩
  have hysl : ys.length = m := by simpa using hryl
  refine (Runs.orPanic (a := y0) rfl).bind fun _ _ _ => ?_
  simp only [List.tail_cons]
  refine (Runs.orPanic (a := mle w ys) (by rw [C46_evalValue, if_pos (by rw [hwl, hysl])])).bind fun _ _ _ => ?_
  refine (innerProductProve_runs ch hch params.pc w rand.witness ys m hwl hr.witness hysl hg h1 _ _ _ _ _ _
    (by rw [hr.bullet]) _).bind fun _ _ _ => ?_
  obtain ⟨_, _, hk, _⟩ := C57_equality ch params.pc.gen1 _ _ _ rand.eq2 _
  refine (runs_of hk).bind fun _ _ _ => ?_
  exact Runs.pure trivial

/-- All variables of the constraints are allocated. -/
def _root_.Zkp.CS.Closed (cs : CS F) : Prop :=
  ∀ k ∈ cs.constraints, ∀ t ∈ k.a ++ k.b ++ k.c, match t.1 with
    | .input i => i < cs.inputs.length
    | .aux i => i < cs.aux.length

theorem generate_fits (cs : CS F) (h : cs.Closed) : (generateR1cs cs).Fits := by
  have hn : cs.constraints.length ≤ padTo cs.constraints.length := Nat.le_pow_clog (by norm_num) _
  have ht := clog_t (generateR1cs cs)
  have hmax : max cs.aux.length cs.inputs.length ≤ (generateR1cs cs).t := Nat.le_pow_clog (by norm_num) _
  have key : ∀ f : R1C F → LC F, (∀ k ∈ cs.constraints, ∀ t ∈ f k, t ∈ k.a ++ k.b ++ k.c) →
      Ml.Fits ((cs.constraints.map fun k => pushRow (f k)) ++
        List.replicate (padTo cs.constraints.length - cs.constraints.length) [])
        (Nat.clog 2 (generateR1cs cs).numConstraints) (Nat.clog 2 (generateR1cs cs).t) := by
    intro f hf
    have hpow : 2 ^ Nat.clog 2 (generateR1cs cs).numConstraints = padTo cs.constraints.length := by
      show 2 ^ Nat.clog 2 (padTo cs.constraints.length) = _
      unfold padTo
      rw [Nat.clog_pow 2 _ (by decide)]
    refine ⟨by rw [hpow]; simp; omega, ?_⟩
    intro row hrow t htr
    rw [pow_succ, ht]
    rcases List.mem_append.1 hrow with hr | hr
    · obtain ⟨k, hk, rfl⟩ := List.mem_map.1 hr
      obtain ⟨t', ht', rfl⟩ := List.mem_map.1 htr
      have := h k hk t' (hf k hk t' ht')
      obtain ⟨v, x⟩ := t'
      cases v with
      | input i => simp only [col] at this ⊢; omega
      | aux i => simp only [col] at this ⊢; omega
    · rw [(List.mem_replicate.1 hr).2] at htr
      simp at htr
  exact ⟨key R1C.a fun k _ t ht => by simp [ht], key R1C.b fun k _ t ht => by simp [ht],
    key R1C.c fun k _ t ht => by simp [ht]⟩

/-- The values recorded by the synthesis satisfy the instance, as the prover pads them. -/
theorem generate_sat (cs : CS F) (inputs : List F) (hin : cs.inputs = 1 :: inputs) (hv : cs.Valid) :
    (generateR1cs cs).Sat (assign (fun i => (zTab (cs.aux ++ List.replicate ((generateR1cs cs).t - cs.aux.length) 0)
      inputs (Nat.clog 2 (generateR1cs cs).t)).getD i 0) inputs) := by
  refine (C48_generate cs _ rfl).1.2 (hv _ ⟨?_, ?_⟩)
  · intro i v hi
    rw [hin] at hi
    show (1 :: inputs).getD i 0 = v
    rw [List.getD_eq_getElem?_getD, hi]; rfl
  · intro i v hi
    have hl : i < cs.aux.length := by
      by_contra h
      rw [List.getElem?_eq_none (by omega)] at hi
      cases hi
    show (zTab _ inputs _).getD i 0 = v
    unfold zTab
    rw [List.append_assoc, List.getD_append _ _ _ _ hl, List.getD_eq_getElem?_getD, hi]; rfl

/-- C79 for circuits none of whose public inputs is zero, or only the last ones: whatever the prover outputs for a satisfied circuit is accepted,
and it does output a proof when no challenge is zero (a zero challenge `x` of the inner-product reduction panics). The
instance is the one `generate_r1cs` makes of the circuit.

Partial: the full claim has no condition on the public inputs and is false (`C79_violated`); the verifier's input
polynomial drops zeros (C45). -/
theorem C79_partial (h2 : (2 : F) ≠ 0) (h3 : (3 : F) ≠ 0) (params : SatParams G) (hs1 : params.pc.gen1 = params.gen1)
    (hh : params.pc.genN.h = params.gen1.h) (hg1 : params.gen1.generators ≠ []) (cs : CS F) (hc : cs.Closed) (hv : cs.Valid)
    (inputs : List F) (hin : cs.inputs = 1 :: inputs) (hz : ZerosLast inputs)
    (hg : 2 ^ (Nat.clog 2 (generateR1cs cs).t - Nat.clog 2 (generateR1cs cs).t / 2) ≤ params.pc.genN.generators.length)
    (rand : SatRand F) (hr : rand.Shape (Nat.clog 2 (generateR1cs cs).numConstraints) (Nat.clog 2 (generateR1cs cs).t))
    (ch : Oracle F G) (r1csHash paramsHash : F) :
    (∀ proof, createNizk ch params (generateR1cs cs) cs rand r1csHash paramsHash = .ok proof →
      verifyNizk ch params (generateR1cs cs) inputs proof r1csHash paramsHash = .ok ()) ∧
    ((∀ t, ch t ≠ 0) → ∃ proof, createNizk ch params (generateR1cs cs) cs rand r1csHash paramsHash = .ok proof) := by
  obtain ⟨_, _, hla, hlb, hlc⟩ := C48_generate cs (assign (fun _ => 0) inputs) rfl
  have hf := generate_fits cs hc
  have hsat := generate_sat cs inputs hin hv
  have hmax : max cs.aux.length cs.inputs.length ≤ (generateR1cs cs).t := Nat.le_pow_clog (by norm_num) _
  constructor
  · intro proof hp
    unfold createNizk at hp
    split at hp
    · next sat rx ry tr' he =>
      obtain rfl := Except.ok.inj hp
      obtain ⟨a, b, c, ha, hb, hc, hv, _⟩ := sat_complete h2 h3 ch params hs1 hh _ hf hla hlb hlc cs inputs hz hin hsat rand hr
        _ _ _ _ _ he
      unfold verifyNizk
      simp only [ha, hb, hc, hv]
    · cases hp
  · intro hch
    obtain ⟨⟨sat, rx, ry⟩, _, he, _⟩ := satProve_runs h2 h3 ch hch params (by rw [hs1]; exact hg1) _ hg hf hla hlb hlc cs rfl
      (by omega) (by omega) inputs hin hsat rand hr (nizkStart r1csHash paramsHash)
    exact ⟨⟨sat, rx, ry⟩, by unfold createNizk; rw [he]⟩

namespace Ex79

/-- Parameters over the field itself. -/
def params : SatParams F17 :=
  ⟨⟨4, ⟨2, [2, 3], 5⟩, ⟨1, [7], 5⟩⟩, ⟨1, [7], 5⟩, ⟨3, [1, 2, 3], 4⟩, ⟨4, [1, 2, 3, 4], 5⟩, 4⟩

/-- The circuit `x · x = out` with three public inputs (with the constant one) and one witness. -/
def circuit (u x out : F17) : CS F17 :=
  ⟨true, [1, u, out], [x], [⟨[(.aux 0, 1)], [(.aux 0, 1)], [(.input 2, 1)]⟩]⟩

theorem circuit_valid (u x : F17) : (circuit u x (x * x)).Valid := by
  rintro w ⟨h1, h2⟩ k hk
  have e1 : w (.input 2) = x * x := h1 2 _ rfl
  have e2 : w (.aux 0) = x := h2 0 _ rfl
  obtain rfl : k = _ := by simpa [circuit] using hk
  simp [R1C.Holds, LC.eval, e1, e2]

theorem circuit_closed (u x out : F17) : (circuit u x out).Closed := by
  intro k hk t ht
  obtain rfl : k = _ := by simpa [circuit] using hk
  simp only [List.cons_append, List.nil_append, List.mem_cons, List.not_mem_nil, or_false] at ht
  rcases ht with rfl | rfl | rfl <;> simp [circuit]

/-- Random scalars for no round of the first and three of the second sum-check. -/
def rand : SatRand F17 :=
  ⟨[1, 2], [], [⟨1, 2, [3, 4, 5], 6, 7⟩, ⟨8, 9, [10, 11, 12], 13, 14⟩, ⟨15, 16, [1, 2, 3], 4, 5⟩],
    1, 2, 3, 4, 5, 6, 7, 8, 9, 10, 11, 12, 13, 14, 15, 16, [(1, 2)], 3⟩

theorem t_eq (u x out : F17) : (generateR1cs (circuit u x out)).t = 4 := (by decide : padTo (max 1 3) = 4)

theorem clog4 : Nat.clog 2 4 = 2 := by decide

theorem clog1 : Nat.clog 2 1 = 0 := by decide

theorem rand_shape (u x out : F17) : rand.Shape (Nat.clog 2 (generateR1cs (circuit u x out)).numConstraints)
    (Nat.clog 2 (generateR1cs (circuit u x out)).t) := by
  rw [t_eq, show (generateR1cs (circuit u x out)).numConstraints = 1 from (by decide : padTo 1 = 1), clog4, clog1]
  exact ⟨rfl, rfl, by simp [rand], rfl, by simp [rand], rfl⟩

/-- A hash function that depends on the length of the transcript and is never zero. -/
def ch : Oracle F17 F17 := fun tr => ((tr.length % 16 : Nat) : F17) + 1

theorem ch_ne (t : Transcript F17 F17) : ch t ≠ 0 := by
  have key : ∀ n < 16, ((n : Nat) : F17) + 1 ≠ 0 := by decide
  exact key _ (Nat.mod_lt _ (by decide))

/-- The hypotheses can be met: public inputs 6 and 9, witness 3. -/
example : ∃ proof, createNizk ch params (generateR1cs (circuit 6 3 9)) (circuit 6 3 9) rand 1 2 = .ok proof ∧
    verifyNizk ch params (generateR1cs (circuit 6 3 9)) [6, 9] proof 1 2 = .ok () := by
  obtain ⟨h1, h2⟩ := C79_partial (by decide : (2 : F17) ≠ 0) (by decide : (3 : F17) ≠ 0) params rfl rfl (by simp [params])
    (circuit 6 3 9) (circuit_closed _ _ _) (circuit_valid 6 3) [6, 9] rfl (.of_ne (by decide)) (by rw [t_eq, clog4]; decide) rand
    (rand_shape _ _ _) ch 1 2
  obtain ⟨proof, hp⟩ := h2 ch_ne
  exact ⟨proof, hp, h1 proof hp⟩

/-- A proof was produced, and the check rejects it. -/
def rejected {α : Type} (p : Except Stop α) (v : α → Except Stop Unit) : Bool :=
  match p with
  | .ok a => (match v a with | .error .reject => true | _ => false)
  | .error _ => false

theorem rejected_ok {α : Type} {p : Except Stop α} {v : α → Except Stop Unit} (h : rejected p v = true) :
    ∃ a, p = .ok a ∧ v a = .error .reject := by
  unfold rejected at h
  split at h
  · rename_i a
    refine ⟨a, rfl, ?_⟩
    split at h
    · assumption
    · cases h
  · cases h

end Ex79

/-- C79 fails: with the public inputs 0 and 9 the circuit is satisfied and the prover outputs a proof, but the verifier
rejects it. -/
theorem C79_violated : ∃ (params : SatParams F17) (cs : CS F17) (inputs : List F17) (rand : SatRand F17)
    (ch : Oracle F17 F17) (proof : NizkProof F17 F17), params.pc.gen1 = params.gen1 ∧ params.pc.genN.h = params.gen1.h ∧
    params.gen1.generators ≠ [] ∧ cs.Closed ∧ cs.Valid ∧ cs.inputs = 1 :: inputs ∧
    2 ^ (Nat.clog 2 (generateR1cs cs).t - Nat.clog 2 (generateR1cs cs).t / 2) ≤ params.pc.genN.generators.length ∧
    rand.Shape (Nat.clog 2 (generateR1cs cs).numConstraints) (Nat.clog 2 (generateR1cs cs).t) ∧ (∀ t, ch t ≠ 0) ∧
    createNizk ch params (generateR1cs cs) cs rand 1 2 = .ok proof ∧
    verifyNizk ch params (generateR1cs cs) inputs proof 1 2 = .error .reject := by
  have hp : Ex79.rejected (createNizk Ex79.ch Ex79.params (generateR1cs (Ex79.circuit 0 3 9)) (Ex79.circuit 0 3 9)
      Ex79.rand 1 2)
      (fun proof => verifyNizk Ex79.ch Ex79.params (generateR1cs (Ex79.circuit 0 3 9)) [0, 9] proof 1 2) = true := by
    decide +kernel
  obtain ⟨proof, h1, h2⟩ := Ex79.rejected_ok hp
  exact ⟨Ex79.params, Ex79.circuit 0 3 9, [0, 9], Ex79.rand, Ex79.ch, proof, rfl, rfl, by simp [Ex79.params],
    Ex79.circuit_closed _ _ _, Ex79.circuit_valid 0 3, rfl, by rw [Ex79.t_eq, Ex79.clog4]; decide, Ex79.rand_shape _ _ _,
    Ex79.ch_ne, h1, h2⟩

end Zkp.Spartan
