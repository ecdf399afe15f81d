/- C99: what proofs of Spartan's NIZK reveal about the witness. -/
import Verif.Proof.SpartanHidingSame

namespace Zkp.Spartan

open Zkp.Ml Zkp.Sc Zkp.Cp

set_option linter.unusedSectionVars false
set_option linter.unusedSimpArgs false

variable {F : Type} [Field F] {G : Type} [AddCommGroup G] [Module F G] [DecidableEq F] [DecidableEq G]

/-! ### What a proof shows -/

theorem rounds_chal {ch : Oracle F G} {gen1 genN : MultiParams G} {size : Nat} {round : List (List F) → F → Option (List F)}
    (rands : List (RoundRand F)) : ∀ {claim blind : F} {ts : List (List F)} {p : ScProof F G} {rs : List F}
    {x : List (List F) × F × F} {tr tr' : Transcript F G},
    hidingRounds ch gen1 genN size round rands claim blind ts tr = .ok ((p, rs, x), tr') →
    rs.length = rands.length ∧ ∀ r ∈ rs, ∃ t, ch t = r := by
  induction rands with
  | nil =>
    intro claim blind ts p rs x tr tr' h
    obtain ⟨e, -⟩ := pure_inv h
    obtain ⟨-, e⟩ := Prod.mk.inj e
    obtain ⟨rfl, -⟩ := Prod.mk.inj e
    simp
  | cons rand rands ih =>
    intro claim blind ts p rs x tr tr' h
    unfold hidingRounds at h
    obtain ⟨_, _, _, h⟩ := bind_inv h
    obtain ⟨_, _, _, h⟩ := bind_inv h
    obtain ⟨r, _, hr, h⟩ := bind_inv h
    obtain ⟨_, _, _, h⟩ := bind_inv h
    obtain ⟨_, _, _, h⟩ := bind_inv h
    obtain ⟨_, _, _, h⟩ := bind_inv h
    obtain ⟨_, _, _, h⟩ := bind_inv h
    obtain ⟨⟨p', rs', x'⟩, _, hi, h⟩ := bind_inv h
    obtain ⟨e, -⟩ := pure_inv h
    obtain ⟨-, e⟩ := Prod.mk.inj e
    obtain ⟨rfl, -⟩ := Prod.mk.inj e
    obtain ⟨hl, hc⟩ := ih hi
    refine ⟨by simp [hl], ?_⟩
    intro a ha
    rcases List.mem_cons.1 ha with rfl | ha
    · obtain ⟨e, -⟩ := challenge_inv hr
      exact ⟨_, e⟩
    · exact hc a ha

/-- Whatever was said before: the first part of a proof shows the value of the polynomial of the witness at the point of
the second sum-check, whose coordinates are challenges. -/
theorem satProve_leak (ch : Oracle F G) (params : SatParams G) (s : Inst F) (cs : CS F) (rand : SatRand F)
    (tr tr' : Transcript F G) (sat : SatProof F G) (rx ry : List F)
    (h : satProve ch params s cs rand tr = .ok ((sat, rx, ry), tr')) :
    sat.wRy = mle (cs.aux ++ List.replicate (s.t - cs.aux.length) 0) ry.tail ∧
      ry.length = rand.two.length ∧ ∀ r ∈ ry, ∃ t, ch t = r := by
  unfold satProve at h
  obtain ⟨_, _, _, h⟩ := bind_inv h
  obtain ⟨aux, _, ha, h⟩ := bind_inv h
  obtain ⟨-, rfl, -⟩ := padValues_inv ha
  obtain ⟨inp, _, _, h⟩ := bind_inv h
  obtain ⟨_, _, _, h⟩ := bind_inv h
  obtain ⟨_, _, _, h⟩ := bind_inv h
  obtain ⟨_, _, _, h⟩ := bind_inv h
  obtain ⟨_, _, _, h⟩ := bind_inv h
  obtain ⟨_, _, _, h⟩ := bind_inv h
  obtain ⟨_, _, _, h⟩ := bind_inv h
  obtain ⟨_, _, _, h⟩ := bind_inv h
  obtain ⟨⟨p1, rx', ⟨va, vb, vc, et⟩, b1⟩, _, _, h⟩ := bind_inv h
  obtain ⟨⟨kn, vcC⟩, _, _, h⟩ := bind_inv h
  obtain ⟨⟨pd, vaC, vbC, prC⟩, _, _, h⟩ := bind_inv h
  obtain ⟨_, _, _, h⟩ := bind_inv h
  obtain ⟨_, _, _, h⟩ := bind_inv h
  obtain ⟨_, _, _, h⟩ := bind_inv h
  obtain ⟨_, _, _, h⟩ := bind_inv h
  obtain ⟨_, _, _, h⟩ := bind_inv h
  obtain ⟨_, _, _, h⟩ := bind_inv h
  obtain ⟨_, _, _, h⟩ := bind_inv h
  obtain ⟨_, _, _, h⟩ := bind_inv h
  obtain ⟨evals, _, _, h⟩ := bind_inv h
  obtain ⟨⟨p2, ry', ⟨vs, vz⟩, b2⟩, _, h2, h⟩ := bind_inv h
  obtain ⟨y0, _, _, h⟩ := bind_inv h
  obtain ⟨wRy, _, hw, h⟩ := bind_inv h
  obtain ⟨⟨dt, cr⟩, _, _, h⟩ := bind_inv h
  obtain ⟨_, _, _, h⟩ := bind_inv h
  obtain ⟨e, -⟩ := pure_inv h
  simp only [Prod.mk.injEq] at e
  obtain ⟨rfl, rfl, rfl⟩ := e
  unfold phaseTwo at h2
  obtain ⟨_, _, _, h2⟩ := bind_inv h2
  obtain ⟨⟨p3, rs, fin, cl, bl⟩, _, h3, h2⟩ := bind_inv h2
  obtain ⟨_, _, _, h2⟩ := bind_inv h2
  obtain ⟨_, _, _, h2⟩ := bind_inv h2
  obtain ⟨e, -⟩ := pure_inv h2
  simp only [Prod.mk.injEq] at e
  obtain ⟨rfl, rfl, -⟩ := e
  obtain ⟨hl, hc⟩ := rounds_chal _ h3
  refine ⟨?_, hl, hc⟩
  obtain ⟨hw, -⟩ := orPanic_inv hw
  rw [C46_evalValue] at hw
  split at hw
  · exact (Option.some.inj hw).symm
  · cases hw

/-- Every proof shows the value of the polynomial of the witness at a point that it shows as well, and the coordinates
of the point are challenges. Nothing is assumed of the circuit, the parameters or the challenges. -/
theorem C99_leak (ch : Oracle F G) (params : SatParams G) (s : Inst F) (cs : CS F) (rand : SatRand F) (r1csHash paramsHash : F)
    (proof : NizkProof F G) (hp : createNizk ch params s cs rand r1csHash paramsHash = .ok proof) :
    proof.sat.wRy = mle (cs.aux ++ List.replicate (s.t - cs.aux.length) 0) proof.ry.tail ∧
      proof.ry.length = rand.two.length ∧ ∀ r ∈ proof.ry, ∃ t, ch t = r := by
  unfold createNizk at hp
  split at hp
  swap
  · cases hp
  rename_i sat rx ry tr' h
  obtain rfl := Except.ok.inj hp
  exact satProve_leak ch params s cs rand _ _ sat rx ry h

/-! ### Everything else is hidden -/

/-- The lists of random scalars that the prover draws. -/
abbrev Rands (F : Type) (nx m : Nat) := {rand : SatRand F // rand.Shape nx m}

/-- The run of the prover, in terms of its steps. -/
theorem nizk_of_steps {ch : Oracle F G} (ho : Oblivious ch) (params : SatParams G) (cs : CS F) (hc : cs.Closed)
    (inputs : List F) (hin : cs.inputs = 1 :: inputs) (h1 h2 : F) (rand : SatRand F)
    (hr : rand.Shape (Nat.clog 2 (generateR1cs cs).numConstraints) (Nat.clog 2 (generateR1cs cs).t)) (proof : SatProof F G)
    (b1 b2 : F) (h : Steps ch params (generateR1cs cs) inputs (Nat.clog 2 (generateR1cs cs).t)
      (Nat.clog 2 (generateR1cs cs).numConstraints) 2 (cs.aux ++ List.replicate ((generateR1cs cs).t - cs.aux.length) 0) rand
      proof b1 b2) :
    createNizk ch params (generateR1cs cs) cs rand h1 h2 = .ok ⟨proof,
      pointX ch 2 (Nat.clog 2 (generateR1cs cs).numConstraints),
      pointY ch 2 (Nat.clog 2 (generateR1cs cs).numConstraints) (Nat.clog 2 (generateR1cs cs).t)⟩ := by
  obtain ⟨_, _, hla, hlb, hlc⟩ := C48_generate cs (assign (fun _ => 0) inputs) rfl
  have hmax : max cs.aux.length cs.inputs.length ≤ (generateR1cs cs).t := Nat.le_pow_clog (by norm_num) _
  have hy := steps_yields ho params (generateR1cs cs) cs inputs hin (generate_fits cs hc) hla hlb hlc rfl (by omega) (by omega)
    _ _ 2 rfl rfl _ rfl rand hr proof b1 b2 h
  obtain ⟨tr', he, -⟩ := hy (nizkStart h1 h2) rfl
  unfold createNizk
  rw [he]

theorem zk_core (h2 : (2 : F) ≠ 0) (h3 : (3 : F) ≠ 0) (ch : Oracle F G) (ho : Oblivious ch)
    (hne : ∀ t, ch (t ++ [.chal "x"]) ≠ 0) (params : SatParams G) (hg : params.pc.gen1 = params.gen1)
    (hh : params.pc.genN.h = params.gen1.h) (hg1 : params.gen1.generators ≠ [])
    (hs1 : Spans F params.gen1.h) (hs3 : Spans F params.gen3.h) (hs4 : Spans F params.gen4.h)
    (cs cs' : CS F) (hc : cs.Closed) (hv : cs.Valid) (hv' : cs'.Valid) (hcon : cs'.constraints = cs.constraints)
    (hinp : cs'.inputs = cs.inputs) (haux : cs'.aux.length = cs.aux.length)
    (m nx : Nat) (hm : m = Nat.clog 2 (generateR1cs cs).t) (hnx : nx = Nat.clog 2 (generateR1cs cs).numConstraints)
    (inputs : List F) (hin : cs.inputs = 1 :: inputs)
    (hgN : 2 ^ (m - m / 2) ≤ params.pc.genN.generators.length)
    (r1csHash paramsHash : F) (w w' : List F)
    (hw : w = cs.aux ++ List.replicate ((generateR1cs cs).t - cs.aux.length) 0)
    (hw' : w' = cs'.aux ++ List.replicate ((generateR1cs cs).t - cs'.aux.length) 0)
    (hsame : ∀ (rand : Rands F nx m) proof,
      createNizk ch params (generateR1cs cs) cs rand.1 r1csHash paramsHash = .ok proof →
      mle w' proof.ry.tail = mle w proof.ry.tail) :
    ∃ f : Rands F nx m ≃
        Rands F nx m,
      ∀ rand, ∃ proof, createNizk ch params (generateR1cs cs) cs rand.1 r1csHash paramsHash = .ok proof ∧
        createNizk ch params (generateR1cs cs) cs' (f rand).1 r1csHash paramsHash = .ok proof := by
  have hgen : generateR1cs cs' = generateR1cs cs := by unfold generateR1cs; rw [hcon, hinp, haux]
  have hc' : cs'.Closed := by
    unfold CS.Closed; rw [hcon, hinp, haux]; exact hc
  have hsat := generate_sat cs inputs hin hv
  have hsat' := generate_sat cs' inputs (hinp.trans hin) hv'
  have hf := generate_fits cs hc
  have run : ∀ rand proof b1 b2, rand.Shape nx m → Steps ch params (generateR1cs cs) inputs m nx 2 w rand proof b1 b2 →
      createNizk ch params (generateR1cs cs) cs rand r1csHash paramsHash = .ok ⟨proof, pointX ch 2 nx, pointY ch 2 nx m⟩ := by
    intro rand proof b1 b2 hr h
    subst hm hnx hw
    exact nizk_of_steps ho params cs hc inputs hin r1csHash paramsHash rand hr proof b1 b2 h
  have run' : ∀ rand proof b1 b2, rand.Shape nx m → Steps ch params (generateR1cs cs) inputs m nx 2 w' rand proof b1 b2 →
      createNizk ch params (generateR1cs cs) cs' rand r1csHash paramsHash = .ok ⟨proof, pointX ch 2 nx, pointY ch 2 nx m⟩ := by
    intro rand proof b1 b2 hr h
    subst hm hnx hw'
    have := nizk_of_steps ho params cs' hc' inputs (hinp.trans hin) r1csHash paramsHash rand
    rw [hgen] at this
    exact this hr proof b1 b2 h
  have hmax : max cs.aux.length cs.inputs.length ≤ (generateR1cs cs).t := Nat.le_pow_clog (by norm_num) _
  have ht : 2 ^ m = (generateR1cs cs).t := by rw [hm, clog_t]
  have hwl : w.length = 2 ^ m := by rw [hw, ht]; simp; omega
  have hwl' : w'.length = 2 ^ m := by rw [hw', ht]; simp; omega
  have hil : inputs.length + 1 ≤ 2 ^ m := by rw [ht]; rw [hin] at hmax; simp at hmax; omega
  have hpow : (generateR1cs cs).numConstraints = 2 ^ nx := by
    rw [hnx]
    show padTo cs.constraints.length = 2 ^ Nat.clog 2 (padTo cs.constraints.length)
    unfold padTo
    rw [Nat.clog_pow 2 _ (by decide)]
  rw [hgen] at hsat'
  unfold Inst.Fits at hf
  simp only [← hm, ← hnx, ← hw, ← hw'] at hsat hsat' hf
  -- the two witnesses have the same value at the point of every proof
  have hval : ∀ rand : SatRand F, rand.Shape nx m → mle w' (pointY ch 2 nx m).tail = mle w (pointY ch 2 nx m).tail := by
    intro rand hr
    obtain ⟨_, proof, b1, b2, _, _, _, hst, _⟩ := steps_same h2 h3 ho hne params hg hh hg1 hs1 hs3 hs4 (generateR1cs cs) inputs m nx 2
      hpow hil hf.1 hf.2.1 hf.2.2 hgN w w hwl hwl hsat hsat rfl rand hr
    have e := run rand proof b1 b2 hr hst
    have e' := hsame ⟨rand, hr⟩ ⟨proof, pointX ch 2 nx, pointY ch 2 nx m⟩ e
    exact e'
  have fwd : ∀ rand : Rands F nx m, ∃ rand' : Rands F nx m, ∃ proof b1 b2 b1' b2',
      Steps ch params (generateR1cs cs) inputs m nx 2 w rand.1 proof b1 b2 ∧
      Steps ch params (generateR1cs cs) inputs m nx 2 w' rand'.1 proof b1' b2' := by
    intro rand
    obtain ⟨rand', proof, b1, b2, b1', b2', hr', s1, s2⟩ := steps_same h2 h3 ho hne params hg hh hg1 hs1 hs3 hs4 (generateR1cs cs)
      inputs m nx 2 hpow hil hf.1 hf.2.1 hf.2.2 hgN w w' hwl hwl' hsat hsat' (hval rand.1 rand.2) rand.1 rand.2
    exact ⟨⟨rand', hr'⟩, proof, b1, b2, b1', b2', s1, s2⟩
  have bwd : ∀ rand : Rands F nx m, ∃ rand' : Rands F nx m, ∃ proof b1 b2 b1' b2',
      Steps ch params (generateR1cs cs) inputs m nx 2 w' rand.1 proof b1 b2 ∧
      Steps ch params (generateR1cs cs) inputs m nx 2 w rand'.1 proof b1' b2' := by
    intro rand
    obtain ⟨rand', proof, b1, b2, b1', b2', hr', s1, s2⟩ := steps_same h2 h3 ho hne params hg hh hg1 hs1 hs3 hs4 (generateR1cs cs)
      inputs m nx 2 hpow hil hf.1 hf.2.1 hf.2.2 hgN w' w hwl' hwl hsat' hsat (hval rand.1 rand.2).symm rand.1 rand.2
    exact ⟨⟨rand', hr'⟩, proof, b1, b2, b1', b2', s1, s2⟩
  have uniq : ∀ w : List F, w.length = 2 ^ m → ∀ (r r' : Rands F nx m) proof b1 b2 b1' b2',
      Steps ch params (generateR1cs cs) inputs m nx 2 w r.1 proof b1 b2 →
      Steps ch params (generateR1cs cs) inputs m nx 2 w r'.1 proof b1' b2' → r = r' := by
    intro w hw r r' proof b1 b2 b1' b2' s1 s2
    exact Subtype.ext (steps_inj h2 h3 ho hne params hg hh hg1 hs1 hs3 hs4 (generateR1cs cs) inputs m nx 2 hil hgN w hw r.1 r'.1
      r.2 r'.2 proof b1 b2 b1' b2' s1 s2)
  choose f pf b1 b2 b1' b2' s1 s2 using fwd
  have hinj : Function.Injective f := by
    intro r r' h
    have e1 := run' _ _ _ _ (f r).2 (s2 r)
    have e2 := run' _ _ _ _ (f r').2 (s2 r')
    rw [h, e2] at e1
    have ep : pf r' = pf r := (NizkProof.mk.inj (Except.ok.inj e1)).1
    exact uniq w hwl r r' (pf r) _ _ _ _ (s1 r) (ep ▸ s1 r')
  have hsurj : Function.Surjective f := by
    intro r'
    obtain ⟨r, proof, _, _, _, _, t1, t2⟩ := bwd r'
    refine ⟨r, ?_⟩
    have e1 := run _ _ _ _ r.2 t2
    have e2 := run _ _ _ _ r.2 (s1 r)
    rw [e2] at e1
    have ep : pf r = proof := (NizkProof.mk.inj (Except.ok.inj e1)).1
    exact uniq w' hwl' (f r) r' proof _ _ _ _ (ep ▸ s2 r) t1
  exact ⟨Equiv.ofBijective f ⟨hinj, hsurj⟩, fun r => ⟨_, run _ _ _ _ r.2 (s1 r), run' _ _ _ _ (f r).2 (s2 r)⟩⟩

/-- The point of the proof is the same for all random scalars. -/
theorem nizk_point (h2 : (2 : F) ≠ 0) (h3 : (3 : F) ≠ 0) (ch : Oracle F G) (ho : Oblivious ch)
    (hne : ∀ t, ch (t ++ [.chal "x"]) ≠ 0) (params : SatParams G) (hg : params.pc.gen1 = params.gen1)
    (hh : params.pc.genN.h = params.gen1.h) (hg1 : params.gen1.generators ≠ [])
    (hs1 : Spans F params.gen1.h) (hs3 : Spans F params.gen3.h) (hs4 : Spans F params.gen4.h)
    (cs : CS F) (hc : cs.Closed) (hv : cs.Valid) (m nx : Nat) (hm : m = Nat.clog 2 (generateR1cs cs).t)
    (hnx : nx = Nat.clog 2 (generateR1cs cs).numConstraints) (inputs : List F) (hin : cs.inputs = 1 :: inputs)
    (hgN : 2 ^ (m - m / 2) ≤ params.pc.genN.generators.length) (r1csHash paramsHash : F) (rand : Rands F nx m) (proof : NizkProof F G)
    (hp : createNizk ch params (generateR1cs cs) cs rand.1 r1csHash paramsHash = .ok proof) : proof.ry = pointY ch 2 nx m := by
  have hsat := generate_sat cs inputs hin hv
  have hf := generate_fits cs hc
  have hmax : max cs.aux.length cs.inputs.length ≤ (generateR1cs cs).t := Nat.le_pow_clog (by norm_num) _
  have ht : 2 ^ m = (generateR1cs cs).t := by rw [hm, clog_t]
  have hwl : (cs.aux ++ List.replicate ((generateR1cs cs).t - cs.aux.length) 0).length = 2 ^ m := by rw [ht]; simp; omega
  have hil : inputs.length + 1 ≤ 2 ^ m := by rw [ht]; rw [hin] at hmax; simp at hmax; omega
  have hpow : (generateR1cs cs).numConstraints = 2 ^ nx := by
    rw [hnx]
    show padTo cs.constraints.length = 2 ^ Nat.clog 2 (padTo cs.constraints.length)
    unfold padTo
    rw [Nat.clog_pow 2 _ (by decide)]
  unfold Inst.Fits at hf
  rw [← hm] at hsat
  rw [← hm, ← hnx] at hf
  obtain ⟨_, pf, b1, b2, _, _, _, hst, _⟩ := steps_same h2 h3 ho hne params hg hh hg1 hs1 hs3 hs4 (generateR1cs cs) inputs m nx 2
    hpow hil hf.1 hf.2.1 hf.2.2 hgN _ _ hwl hwl hsat hsat rfl rand.1 rand.2
  have e : createNizk ch params (generateR1cs cs) cs rand.1 r1csHash paramsHash = .ok ⟨pf, pointX ch 2 nx, pointY ch 2 nx m⟩ := by
    have hr := rand.2
    generalize rand.1 = r at hr hst
    subst hm hnx
    exact nizk_of_steps ho params cs hc inputs hin r1csHash paramsHash r hr pf b1 b2 hst
  rw [e] at hp
  rw [← Except.ok.inj hp]

/-- C99 up to one number: two witnesses of the same statement whose polynomials have the same value at the point of the
proof give the same proofs. The random scalars with one witness correspond one to one to those with the other so that
the proofs are equal. So for challenges that an honest verifier chose, uniform random scalars give the same distribution of
proofs, and a proof reveals of the witness the number `w_ry` (`C99_leak`) and nothing else.

Partial: the full claim has no condition on the values at the point of the proof and is false (`C99_violated`). -/
theorem C99_partial (h2 : (2 : F) ≠ 0) (h3 : (3 : F) ≠ 0) (ch : Oracle F G) (ho : Oblivious ch)
    (hne : ∀ t, ch (t ++ [.chal "x"]) ≠ 0) (params : SatParams G) (hg : params.pc.gen1 = params.gen1)
    (hh : params.pc.genN.h = params.gen1.h) (hg1 : params.gen1.generators ≠ [])
    (hs1 : Spans F params.gen1.h) (hs3 : Spans F params.gen3.h) (hs4 : Spans F params.gen4.h)
    (cs cs' : CS F) (hc : cs.Closed) (hv : cs.Valid) (hv' : cs'.Valid) (hcon : cs'.constraints = cs.constraints)
    (hinp : cs'.inputs = cs.inputs) (haux : cs'.aux.length = cs.aux.length)
    (inputs : List F) (hin : cs.inputs = 1 :: inputs)
    (hgN : 2 ^ (Nat.clog 2 (generateR1cs cs).t - Nat.clog 2 (generateR1cs cs).t / 2) ≤ params.pc.genN.generators.length)
    (r1csHash paramsHash : F)
    (hsame : ∀ (rand : Rands F (Nat.clog 2 (generateR1cs cs).numConstraints) (Nat.clog 2 (generateR1cs cs).t)) proof,
      createNizk ch params (generateR1cs cs) cs rand.1 r1csHash paramsHash = .ok proof →
      mle (cs'.aux ++ List.replicate ((generateR1cs cs).t - cs'.aux.length) 0) proof.ry.tail =
        mle (cs.aux ++ List.replicate ((generateR1cs cs).t - cs.aux.length) 0) proof.ry.tail) :
    ∃ f : Rands F (Nat.clog 2 (generateR1cs cs).numConstraints) (Nat.clog 2 (generateR1cs cs).t) ≃
        Rands F (Nat.clog 2 (generateR1cs cs).numConstraints) (Nat.clog 2 (generateR1cs cs).t),
      ∀ rand, ∃ proof, createNizk ch params (generateR1cs cs) cs rand.1 r1csHash paramsHash = .ok proof ∧
        createNizk ch params (generateR1cs cs) cs' (f rand).1 r1csHash paramsHash = .ok proof :=
  zk_core h2 h3 ch ho hne params hg hh hg1 hs1 hs3 hs4 cs cs' hc hv hv' hcon hinp haux _ _ rfl rfl inputs hin hgN r1csHash
    paramsHash _ _ rfl rfl hsame

/-! ### A witness read from a proof -/

/-- The statement that `x · x` is a square, with witness `x`. -/
def square (x : F) : CS F := ⟨true, [1, x * x], [x], [⟨[(.aux 0, 1)], [(.aux 0, 1)], [(.input 1, 1)]⟩]⟩

theorem square_t (x : F) : (generateR1cs (square x)).t = 2 := (by decide : padTo (max 1 2) = 2)

/-- From every proof for the statement `square x` the witness `x` can be computed, if the challenge 1 does not
occur. -/
theorem C99_extract (ch : Oracle F G) (hch : ∀ t, ch t ≠ 1) (params : SatParams G) (x : F) (rand : SatRand F)
    (hr : rand.two.length = 2) (r1csHash paramsHash : F) (proof : NizkProof F G)
    (hp : createNizk ch params (generateR1cs (square x)) (square x) rand r1csHash paramsHash = .ok proof) :
    proof.sat.wRy / (1 - proof.ry.getD 1 0) = x := by
  obtain ⟨hw, hl, hc⟩ := C99_leak ch params _ _ rand _ _ proof hp
  rw [square_t] at hw
  rw [hr] at hl
  match hry : proof.ry, hl with
  | [a, b], _ =>
    obtain ⟨t, ht⟩ := hc b (by rw [hry]; simp)
    have hb : 1 - b ≠ 0 := by
      rw [← ht]; exact sub_ne_zero.2 (hch t).symm
    rw [hry] at hw
    have hm : mle [x, 0] [b] = (1 - b) * x := by
      simp [mle, Finset.sum_range_succ, eqWeight]
      ring
    rw [hw]
    show mle [x, 0] [b] / (1 - b) = x
    rw [hm]
    field_simp

namespace Ex99

/-- Parameters over the field itself. -/
def params : SatParams F17 :=
  ⟨⟨4, ⟨2, [2, 3], 5⟩, ⟨1, [7], 5⟩⟩, ⟨1, [7], 5⟩, ⟨3, [1, 2, 3], 4⟩, ⟨4, [1, 2, 3, 4], 5⟩, 4⟩

theorem five_spans : Spans F17 (5 : F17) := fun p => ⟨p * 7, by
  simp only [smul_eq_mul]; exact ⟨by revert p; decide, by revert p; decide⟩⟩

theorem four_spans : Spans F17 (4 : F17) := fun p => ⟨p * 13, by
  simp only [smul_eq_mul]; exact ⟨by revert p; decide, by revert p; decide⟩⟩

/-- Challenges that depend on the position and are neither zero nor one. -/
def ch : Oracle F17 F17 := fun tr => ((tr.length % 15 : Nat) : F17) + 2

theorem ch_oblivious : Oblivious ch := fun t t' h => by unfold ch; rw [h]

theorem ch_ne (t : Transcript F17 F17) : ch t ≠ 0 ∧ ch t ≠ 1 := by
  have key : ∀ n < 15, ((n : Nat) : F17) + 2 ≠ 0 ∧ ((n : Nat) : F17) + 2 ≠ 1 := by decide
  exact key _ (Nat.mod_lt _ (by decide))

theorem square_valid (x : F17) : (square x).Valid := by
  rintro w ⟨h1, h2⟩ k hk
  have e1 : w (.input 1) = x * x := h1 1 _ rfl
  have e2 : w (.aux 0) = x := h2 0 _ rfl
  obtain rfl : k = _ := by simpa [square] using hk
  simp [R1C.Holds, LC.eval, e1, e2]

theorem square_closed (x : F17) : (square x).Closed := by
  intro k hk t ht
  obtain rfl : k = _ := by simpa [square] using hk
  simp only [List.cons_append, List.nil_append, List.mem_cons, List.not_mem_nil, or_false] at ht
  rcases ht with rfl | rfl | rfl <;> simp [square]

/-- Random scalars for no round of the first and two of the second sum-check. -/
def rand : SatRand F17 :=
  ⟨[1], [], [⟨1, 2, [3, 4, 5], 6, 7⟩, ⟨8, 9, [10, 11, 12], 13, 14⟩],
    1, 2, 3, 4, 5, 6, 7, 8, 9, 10, 11, 12, 13, 14, 15, 16, [(1, 2)], 3⟩

theorem clog2 : Nat.clog 2 2 = 1 := by decide

theorem rand_shape (x : F17) : rand.Shape (Nat.clog 2 (generateR1cs (square x)).numConstraints)
    (Nat.clog 2 (generateR1cs (square x)).t) := by
  rw [square_t, show (generateR1cs (square x)).numConstraints = 1 from (by decide : padTo 1 = 1), clog2, Ex79.clog1]
  exact ⟨rfl, rfl, by simp [rand], rfl, by simp [rand], rfl⟩

end Ex99

/-- C99 fails: the statement that 9 is a square has the witnesses 3 and 14, the prover outputs proofs for both, with
challenges chosen beforehand and blinding generators that hide, and from every proof one computes which of the two was used. In
particular no proof is output for both. -/
theorem C99_violated : ∃ (params : SatParams F17) (ch : Oracle F17 F17) (cs cs' : CS F17) (nx m : Nat)
    (read : NizkProof F17 F17 → F17), Oblivious ch ∧ (∀ t, ch t ≠ 0) ∧
    params.pc.gen1 = params.gen1 ∧ params.pc.genN.h = params.gen1.h ∧ params.gen1.generators ≠ [] ∧
    Spans F17 params.gen1.h ∧ Spans F17 params.gen3.h ∧ Spans F17 params.gen4.h ∧
    cs.Closed ∧ cs.Valid ∧ cs'.Valid ∧ cs'.constraints = cs.constraints ∧ cs'.inputs = cs.inputs ∧ cs.aux = [3] ∧ cs'.aux = [14] ∧
    m = Nat.clog 2 (generateR1cs cs).t ∧ nx = Nat.clog 2 (generateR1cs cs).numConstraints ∧
    (∀ rand : Rands F17 nx m, (∃ proof, createNizk ch params (generateR1cs cs) cs rand.1 1 2 = .ok proof) ∧
      ∀ proof, createNizk ch params (generateR1cs cs) cs rand.1 1 2 = .ok proof → read proof = 3) ∧
    (∀ rand : Rands F17 nx m, (∃ proof, createNizk ch params (generateR1cs cs) cs' rand.1 1 2 = .ok proof) ∧
      ∀ proof, createNizk ch params (generateR1cs cs) cs' rand.1 1 2 = .ok proof → read proof = 14) ∧
    Nonempty (Rands F17 nx m) := by
  have hm : ∀ x : F17, 1 = Nat.clog 2 (generateR1cs (square x)).t := fun x => by rw [square_t, Ex99.clog2]
  have hn : ∀ x : F17, 0 = Nat.clog 2 (generateR1cs (square x)).numConstraints := fun x => by
    rw [show (generateR1cs (square x)).numConstraints = 1 from (by decide : padTo 1 = 1), Ex79.clog1]
  have key : ∀ x : F17, ∀ rand : Rands F17 0 1,
      (∃ proof, createNizk Ex99.ch Ex99.params (generateR1cs (square x)) (square x) rand.1 1 2 = .ok proof) ∧
      ∀ proof, createNizk Ex99.ch Ex99.params (generateR1cs (square x)) (square x) rand.1 1 2 = .ok proof →
        proof.sat.wRy / (1 - proof.ry.getD 1 0) = x := by
    intro x rand
    refine ⟨?_, fun proof hp => C99_extract Ex99.ch (fun t => (Ex99.ch_ne t).2) Ex99.params x rand.1 rand.2.two 1 2 proof hp⟩
    obtain ⟨⟨sat, rx, ry⟩, _, he, _⟩ := satProve_runs (by decide : (2 : F17) ≠ 0) (by decide : (3 : F17) ≠ 0) Ex99.ch
      (fun t => (Ex99.ch_ne t).1) Ex99.params (by simp [Ex99.params]) (generateR1cs (square x)) (by rw [← hm]; decide)
      (generate_fits _ (Ex99.square_closed x)) rfl rfl rfl (square x) rfl
      (by rw [square_t]; simp [square]) (by rw [square_t]; simp [square]) [x * x] rfl
      (generate_sat _ _ rfl (Ex99.square_valid x)) rand.1 (by rw [← hm, ← hn]; exact rand.2) (nizkStart 1 2)
    exact ⟨⟨sat, rx, ry⟩, by unfold createNizk; rw [he]⟩
  have h14 : generateR1cs (square (14 : F17)) = generateR1cs (square 3) := rfl
  have k14 := key 14
  rw [h14] at k14
  exact ⟨Ex99.params, Ex99.ch, square 3, square 14, 0, 1, fun proof => proof.sat.wRy / (1 - proof.ry.getD 1 0),
    Ex99.ch_oblivious, fun t => (Ex99.ch_ne t).1, rfl, rfl, by simp [Ex99.params], Ex99.five_spans, Ex99.four_spans,
    Ex99.five_spans, Ex99.square_closed 3, Ex99.square_valid 3, Ex99.square_valid 14, rfl, by decide, rfl, rfl, hm 3, hn 3, key 3, k14,
    ⟨⟨Ex99.rand, by have := Ex99.rand_shape 3; rwa [← hm, ← hn] at this⟩⟩⟩

namespace Ex99

/-- The statement `square x` with a second, free variable `u` and an equation about the public input. -/
def masked (x u : F17) : CS F17 :=
  ⟨true, [1, x * x], [x, u], [⟨[(.aux 0, 1)], [(.aux 0, 1)], [(.input 1, 1)]⟩,
    ⟨[(.input 1, 1)], [(.input 0, 1)], [(.input 1, 1)]⟩]⟩

theorem masked_t (x u : F17) : (generateR1cs (masked x u)).t = 2 := (by decide : padTo (max 2 2) = 2)

theorem masked_valid (x u : F17) : (masked x u).Valid := by
  rintro w ⟨h1, h2⟩ k hk
  have e0 : w (.input 0) = 1 := h1 0 _ rfl
  have e1 : w (.input 1) = x * x := h1 1 _ rfl
  have e2 : w (.aux 0) = x := h2 0 _ rfl
  simp only [masked, List.mem_cons, List.not_mem_nil, or_false] at hk
  rcases hk with rfl | rfl <;> simp [R1C.Holds, LC.eval, e0, e1, e2]

theorem masked_closed (x u : F17) : (masked x u).Closed := by
  intro k hk t ht
  simp only [masked, List.mem_cons, List.not_mem_nil, or_false] at hk
  rcases hk with rfl | rfl <;>
  · simp only [List.cons_append, List.nil_append, List.mem_cons, List.not_mem_nil, or_false] at ht
    rcases ht with rfl | rfl | rfl <;> simp [masked]

/-- The hypotheses can be met by different witnesses: 3 and 2, or 14 and 9. -/
example : (masked 3 2).aux ≠ (masked 14 9).aux ∧ ∃ f : Rands F17 1 1 ≃ Rands F17 1 1, ∀ rand, ∃ proof,
    createNizk ch params (generateR1cs (masked 3 2)) (masked 3 2) rand.1 1 2 = .ok proof ∧
      createNizk ch params (generateR1cs (masked 3 2)) (masked 14 9) (f rand).1 1 2 = .ok proof := by
  have hm : Nat.clog 2 (generateR1cs (masked 3 2)).t = 1 := by rw [masked_t, clog2]
  have hn : Nat.clog 2 (generateR1cs (masked 3 2)).numConstraints = 1 := by
    rw [show (generateR1cs (masked 3 2)).numConstraints = 2 from (by decide : padTo 2 = 2), clog2]
  refine ⟨by decide, ?_⟩
  have := C99_partial (by decide : (2 : F17) ≠ 0) (by decide : (3 : F17) ≠ 0) ch ch_oblivious (fun t => (ch_ne _).1) params
    rfl rfl (by simp [params]) five_spans four_spans five_spans (masked 3 2) (masked 14 9) (masked_closed 3 2)
    (masked_valid 3 2) (masked_valid 14 9) rfl (by decide) rfl [9] (by decide) (by rw [hm]; decide) 1 2
  rw [hm, hn] at this
  refine this ?_
  intro rand proof hp
  rw [nizk_point (by decide : (2 : F17) ≠ 0) (by decide : (3 : F17) ≠ 0) ch ch_oblivious (fun t => (ch_ne _).1) params
    rfl rfl (by simp [params]) five_spans four_spans five_spans (masked 3 2) (masked_closed 3 2) (masked_valid 3 2) 1 1 hm.symm
    hn.symm [9] (by decide) (by decide) 1 2 rand proof hp, masked_t]
  have hy : pointY ch 2 1 1 = [11, 7] := by decide
  rw [hy]
  decide

end Ex99

end Zkp.Spartan
