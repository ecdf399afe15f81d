/- C103: what proofs of Spartan's SNARK reveal about the witness. -/
import Verif.Proof.LenOnly
import Verif.Props.SpartanZk
import Verif.Props.SpartanSnarkComplete

namespace Zkp.Spartan

open Zkp.Ml Zkp.Sc Zkp.Cp

set_option linter.unusedSectionVars false
set_option linter.unusedSimpArgs false

variable {F : Type} [Field F] {G : Type} [AddCommGroup G] [Module F G] [DecidableEq F] [DecidableEq G]

/-- The first part of every SNARK proof shows the value of the polynomial of the witness at the point of the second
sum-check, whose coordinates are challenges (the verifier computes them too). -/
theorem C103_leak (ch : Oracle F G) (satParams : SatParams G) (params : EvalsParams G) (s : Inst F) (cs : CS F)
    (enc : EncodeMemory F) (commit : EncodeCommit G) (rand : SatRand F) (r1 r2 r3 : OpenRand F) (h1 h2 h3 : F)
    (proof : SnarkProof F G) (hp : createSnark ch satParams params s cs enc commit rand r1 r2 r3 h1 h2 h3 = .ok proof) :
    ∃ rx ry tr, satProve ch satParams s cs rand (snarkStart h1 h2 h3) = .ok ((proof.sat, rx, ry), tr) ∧
      proof.sat.wRy = mle (cs.aux ++ List.replicate (s.t - cs.aux.length) 0) ry.tail ∧
      ry.length = rand.two.length ∧ ∀ r ∈ ry, ∃ t, ch t = r := by
  obtain ⟨rx, ry, t1, t2, hs, -⟩ := createSnark_inv _ _ _ _ _ _ _ _ _ _ _ _ _ _ _ hp
  exact ⟨rx, ry, t1, hs, satProve_leak ch satParams s cs rand _ _ _ rx ry hs⟩

/-- The first part of the prover, started from any transcript of length `n`: its run in terms of its steps. -/
theorem sat_of_steps {ch : Oracle F G} (ho : Oblivious ch) (params : SatParams G) (cs : CS F) (hc : cs.Closed)
    (inputs : List F) (hin : cs.inputs = 1 :: inputs) (n : Nat) (rand : SatRand F)
    (hr : rand.Shape (Nat.clog 2 (generateR1cs cs).numConstraints) (Nat.clog 2 (generateR1cs cs).t)) (proof : SatProof F G)
    (b1 b2 : F) (h : Steps ch params (generateR1cs cs) inputs (Nat.clog 2 (generateR1cs cs).t)
      (Nat.clog 2 (generateR1cs cs).numConstraints) n (cs.aux ++ List.replicate ((generateR1cs cs).t - cs.aux.length) 0) rand
      proof b1 b2) :
    Yields (satProve ch params (generateR1cs cs) cs rand) n (proof,
      pointX ch n (Nat.clog 2 (generateR1cs cs).numConstraints),
      pointY ch n (Nat.clog 2 (generateR1cs cs).numConstraints) (Nat.clog 2 (generateR1cs cs).t))
      (posTwo n (Nat.clog 2 (generateR1cs cs).numConstraints) (Nat.clog 2 (generateR1cs cs).t) +
        3 * (Nat.clog 2 (generateR1cs cs).t - Nat.clog 2 (generateR1cs cs).t / 2) + 10) := by
  obtain ⟨_, _, hla, hlb, hlc⟩ := C48_generate cs (assign (fun _ => 0) inputs) rfl
  have hmax : max cs.aux.length cs.inputs.length ≤ (generateR1cs cs).t := Nat.le_pow_clog (by norm_num) _
  exact steps_yields ho params (generateR1cs cs) cs inputs hin (generate_fits cs hc) hla hlb hlc rfl (by omega) (by omega)
    _ _ n rfl rfl _ rfl rand hr proof b1 b2 h

/-- The first part gives the same result with both witnesses, for corresponding random scalars. -/
theorem sat_core (h2 : (2 : F) ≠ 0) (h3 : (3 : F) ≠ 0) (ch : Oracle F G) (ho : Oblivious ch)
    (hne : ∀ t, ch (t ++ [.chal "x"]) ≠ 0) (params : SatParams G) (hg : params.pc.gen1 = params.gen1)
    (hh : params.pc.genN.h = params.gen1.h) (hg1 : params.gen1.generators ≠ [])
    (hs1 : Spans F params.gen1.h) (hs3 : Spans F params.gen3.h) (hs4 : Spans F params.gen4.h)
    (cs cs' : CS F) (hc : cs.Closed) (hv : cs.Valid) (hv' : cs'.Valid) (hcon : cs'.constraints = cs.constraints)
    (hinp : cs'.inputs = cs.inputs) (haux : cs'.aux.length = cs.aux.length)
    (m nx n e : Nat) (hm : m = Nat.clog 2 (generateR1cs cs).t) (hnx : nx = Nat.clog 2 (generateR1cs cs).numConstraints)
    (he : e = posTwo n nx m + 3 * (m - m / 2) + 10)
    (inputs : List F) (hin : cs.inputs = 1 :: inputs)
    (hgN : 2 ^ (m - m / 2) ≤ params.pc.genN.generators.length) (w w' : List F)
    (hw : w = cs.aux ++ List.replicate ((generateR1cs cs).t - cs.aux.length) 0)
    (hw' : w' = cs'.aux ++ List.replicate ((generateR1cs cs).t - cs'.aux.length) 0)
    (hval : mle w' (pointY ch n nx m).tail = mle w (pointY ch n nx m).tail) :
    ∃ f : Rands F nx m ≃ Rands F nx m, ∀ rand, ∃ proof,
      Yields (satProve ch params (generateR1cs cs) cs rand.1) n (proof, pointX ch n nx, pointY ch n nx m) e ∧
      Yields (satProve ch params (generateR1cs cs) cs' (f rand).1) n (proof, pointX ch n nx, pointY ch n nx m) e := by
  have hgen : generateR1cs cs' = generateR1cs cs := by unfold generateR1cs; rw [hcon, hinp, haux]
  have hc' : cs'.Closed := by
    unfold CS.Closed; rw [hcon, hinp, haux]; exact hc
  have hsat := generate_sat cs inputs hin hv
  have hsat' := generate_sat cs' inputs (hinp.trans hin) hv'
  have hf := generate_fits cs hc
  have run : ∀ rand proof b1 b2, rand.Shape nx m → Steps ch params (generateR1cs cs) inputs m nx n w rand proof b1 b2 →
      Yields (satProve ch params (generateR1cs cs) cs rand) n (proof, pointX ch n nx, pointY ch n nx m) e := by
    intro rand proof b1 b2 hr h
    subst he hm hnx hw
    exact sat_of_steps ho params cs hc inputs hin n rand hr proof b1 b2 h
  have run' : ∀ rand proof b1 b2, rand.Shape nx m → Steps ch params (generateR1cs cs) inputs m nx n w' rand proof b1 b2 →
      Yields (satProve ch params (generateR1cs cs) cs' rand) n (proof, pointX ch n nx, pointY ch n nx m) e := by
    intro rand proof b1 b2 hr h
    subst he hm hnx hw'
    have := sat_of_steps ho params cs' hc' inputs (hinp.trans hin) n rand
    rw [hgen] at this
    exact this hr proof b1 b2 h
  have hmax : max cs.aux.length cs.inputs.length ≤ (generateR1cs cs).t := Nat.le_pow_clog (by norm_num) _
  have ht : 2 ^ m = (generateR1cs cs).t := by rw [hm, clog_t]
  have hwl : w.length = 2 ^ m := by rw [hw, ht]; simp; omega
  have hwl' : w'.length = 2 ^ m := by rw [hw', ht]; simp; omega
  have hil : inputs.length + 1 ≤ 2 ^ m := by rw [ht]; rw [hin] at hmax; simp at hmax; omega
  have hpow : (generateR1cs cs).numConstraints = 2 ^ nx := by
    rw [hnx]
    show padTo cs.constraints.length = 2 ^ Nat.clog 2 (padTo cs.constraints.length)
    unfold padTo
    rw [Nat.clog_pow 2 _ (by decide)]
  rw [hgen] at hsat'
  unfold Inst.Fits at hf
  simp only [← hm, ← hnx, ← hw, ← hw'] at hsat hsat' hf
  have fwd : ∀ rand : Rands F nx m, ∃ rand' : Rands F nx m, ∃ proof b1 b2 b1' b2',
      Steps ch params (generateR1cs cs) inputs m nx n w rand.1 proof b1 b2 ∧
      Steps ch params (generateR1cs cs) inputs m nx n w' rand'.1 proof b1' b2' := by
    intro rand
    obtain ⟨rand', proof, b1, b2, b1', b2', hr', s1, s2⟩ := steps_same h2 h3 ho hne params hg hh hg1 hs1 hs3 hs4 (generateR1cs cs)
      inputs m nx n hpow hil hf.1 hf.2.1 hf.2.2 hgN w w' hwl hwl' hsat hsat' hval rand.1 rand.2
    exact ⟨⟨rand', hr'⟩, proof, b1, b2, b1', b2', s1, s2⟩
  have bwd : ∀ rand : Rands F nx m, ∃ rand' : Rands F nx m, ∃ proof b1 b2 b1' b2',
      Steps ch params (generateR1cs cs) inputs m nx n w' rand.1 proof b1 b2 ∧
      Steps ch params (generateR1cs cs) inputs m nx n w rand'.1 proof b1' b2' := by
    intro rand
    obtain ⟨rand', proof, b1, b2, b1', b2', hr', s1, s2⟩ := steps_same h2 h3 ho hne params hg hh hg1 hs1 hs3 hs4 (generateR1cs cs)
      inputs m nx n hpow hil hf.1 hf.2.1 hf.2.2 hgN w' w hwl' hwl hsat' hsat hval.symm rand.1 rand.2
    exact ⟨⟨rand', hr'⟩, proof, b1, b2, b1', b2', s1, s2⟩
  have uniq : ∀ w : List F, w.length = 2 ^ m → ∀ (r r' : Rands F nx m) proof b1 b2 b1' b2',
      Steps ch params (generateR1cs cs) inputs m nx n w r.1 proof b1 b2 →
      Steps ch params (generateR1cs cs) inputs m nx n w r'.1 proof b1' b2' → r = r' := by
    intro w hw r r' proof b1 b2 b1' b2' s1 s2
    exact Subtype.ext (steps_inj h2 h3 ho hne params hg hh hg1 hs1 hs3 hs4 (generateR1cs cs) inputs m nx n hil hgN w hw r.1 r'.1
      r.2 r'.2 proof b1 b2 b1' b2' s1 s2)
  choose f pf b1 b2 b1' b2' s1 s2 using fwd
  have hinj : Function.Injective f := by
    intro r r' h
    have e1 := run' _ _ _ _ (f r).2 (s2 r)
    have e2 := run' _ _ _ _ (f r').2 (s2 r')
    rw [h] at e1
    have ep : pf r' = pf r := (Prod.mk.inj (e2.unique e1).1).1
    exact uniq w hwl r r' (pf r) _ _ _ _ (s1 r) (ep ▸ s1 r')
  have hsurj : Function.Surjective f := by
    intro r'
    obtain ⟨r, proof, _, _, _, _, t1, t2⟩ := bwd r'
    refine ⟨r, ?_⟩
    have e1 := run _ _ _ _ r.2 t2
    have e2 := run _ _ _ _ r.2 (s1 r)
    have ep : pf r = proof := (Prod.mk.inj (e2.unique e1).1).1
    exact uniq w' hwl' (f r) r' proof _ _ _ _ (ep ▸ s2 r) t1
  exact ⟨Equiv.ofBijective f ⟨hinj, hsurj⟩, fun r => ⟨_, run _ _ _ _ r.2 (s1 r), run' _ _ _ _ (f r).2 (s2 r)⟩⟩

/-- If the first parts agree, the proofs agree: the second part does not use the witness. -/
theorem snark_of_sat {ch : Oracle F G} (ho : Oblivious ch) (satParams : SatParams G) (params : EvalsParams G) (s : Inst F)
    (cs cs' : CS F) (enc : EncodeMemory F) (commit : EncodeCommit G) (rand rand' : SatRand F) (r1 r2 r3 : OpenRand F)
    (h1 h2 h3 : F) (sat : SatProof F G) (rx ry : List F) (e : Nat)
    (hy : Yields (satProve ch satParams s cs rand) 3 (sat, rx, ry) e)
    (hy' : Yields (satProve ch satParams s cs' rand') 3 (sat, rx, ry) e) :
    createSnark ch satParams params s cs enc commit rand r1 r2 r3 h1 h2 h3 =
      createSnark ch satParams params s cs' enc commit rand' r1 r2 r3 h1 h2 h3 := by
  obtain ⟨t, ht, hl⟩ := hy (snarkStart h1 h2 h3) rfl
  obtain ⟨t', ht', hl'⟩ := hy' (snarkStart h1 h2 h3) rfl
  let rest : Vf F G (SnarkProof F G) := do
    let a ← orPanic (evaluateMle s.a rx ry)
    let b ← orPanic (evaluateMle s.b rx ry)
    let c ← orPanic (evaluateMle s.c rx ry)
    say (.fr "Ar_claim" a)
    say (.fr "Br_claim" b)
    say (.fr "Cr_claim" c)
    say (.u64 "n" commit.n)
    say (.u64 "m" commit.m)
    say (.pts "encode_mem_commit" commit.mem)
    say (.pts "encode_ops_commit" commit.ops)
    let proof ← sparseEvalProve ch params rx ry (a, b, c) enc r1 r2 r3
    pure ⟨sat, (a, b, c), proof⟩
  have hrest : LenOnly rest :=
    (LenOnly.orPanic _).bind fun _ => (LenOnly.orPanic _).bind fun _ => (LenOnly.orPanic _).bind fun _ =>
      (LenOnly.say _).bind fun _ => (LenOnly.say _).bind fun _ => (LenOnly.say _).bind fun _ => (LenOnly.say _).bind fun _ =>
      (LenOnly.say _).bind fun _ => (LenOnly.say _).bind fun _ => (LenOnly.say _).bind fun _ =>
      (LenOnly.sparse ho _ _ _ _ _ _ _ _).bind fun _ => LenOnly.pure _
  have key : ∀ (c0 : CS F) (r0 : SatRand F) (t0 : Transcript F G),
      satProve ch satParams s c0 r0 (snarkStart h1 h2 h3) = .ok ((sat, rx, ry), t0) →
      createSnark ch satParams params s c0 enc commit r0 r1 r2 r3 h1 h2 h3 =
        match rest t0 with
        | .ok (p, _) => .ok p
        | .error e => .error e := by
    intro c0 r0 t0 h0
    unfold createSnark
    simp only [bind, StateT.bind, h0, Except.bind]
    rfl
  rw [key cs rand t ht, key cs' rand' t' ht']
  rcases hrest t t' (hl.trans hl'.symm) with ⟨e, e1, e2⟩ | ⟨a, u, u', e1, e2, -⟩
  · rw [e1, e2]
  · rw [e1, e2]

/-- C103 up to one number: for two witnesses of the same statement whose polynomials have the same value at the point of
the proof, the random scalars with the one correspond one to one to those with the other so that the SNARK prover gives the
same result.  The scalars of the three openings are kept.  (That the prover outputs a proof is C81.)

Partial: the full claim has no condition on the values at the point of the proof and is false (`C103_violated`). -/
theorem C103_partial (h2 : (2 : F) ≠ 0) (h3 : (3 : F) ≠ 0) (ch : Oracle F G) (ho : Oblivious ch)
    (hne : ∀ t, ch (t ++ [.chal "x"]) ≠ 0) (satParams : SatParams G) (hg : satParams.pc.gen1 = satParams.gen1)
    (hh : satParams.pc.genN.h = satParams.gen1.h) (hg1 : satParams.gen1.generators ≠ [])
    (hs1 : Spans F satParams.gen1.h) (hs3 : Spans F satParams.gen3.h) (hs4 : Spans F satParams.gen4.h)
    (params : EvalsParams G) (cs cs' : CS F) (hc : cs.Closed) (hv : cs.Valid) (hv' : cs'.Valid)
    (hcon : cs'.constraints = cs.constraints) (hinp : cs'.inputs = cs.inputs) (haux : cs'.aux.length = cs.aux.length)
    (inputs : List F) (hin : cs.inputs = 1 :: inputs)
    (hgN : 2 ^ (Nat.clog 2 (generateR1cs cs).t - Nat.clog 2 (generateR1cs cs).t / 2) ≤ satParams.pc.genN.generators.length)
    (enc : EncodeMemory F) (commit : EncodeCommit G) (r1csHash paramsHash encodeHash : F)
    (hsame : ∀ (rand : Rands F (Nat.clog 2 (generateR1cs cs).numConstraints) (Nat.clog 2 (generateR1cs cs).t)) sat rx ry tr,
      satProve ch satParams (generateR1cs cs) cs rand.1 (snarkStart r1csHash paramsHash encodeHash) =
        .ok ((sat, rx, ry), tr) →
      mle (cs'.aux ++ List.replicate ((generateR1cs cs).t - cs'.aux.length) 0) ry.tail =
        mle (cs.aux ++ List.replicate ((generateR1cs cs).t - cs.aux.length) 0) ry.tail) :
    ∃ f : Rands F (Nat.clog 2 (generateR1cs cs).numConstraints) (Nat.clog 2 (generateR1cs cs).t) ≃
        Rands F (Nat.clog 2 (generateR1cs cs).numConstraints) (Nat.clog 2 (generateR1cs cs).t),
      ∀ rand r1 r2 r3,
        createSnark ch satParams params (generateR1cs cs) cs enc commit rand.1 r1 r2 r3 r1csHash paramsHash encodeHash =
        createSnark ch satParams params (generateR1cs cs) cs' enc commit (f rand).1 r1 r2 r3 r1csHash paramsHash
          encodeHash := by
  by_cases hex : Nonempty (Rands F (Nat.clog 2 (generateR1cs cs).numConstraints) (Nat.clog 2 (generateR1cs cs).t))
  swap
  · exact ⟨Equiv.refl _, fun rand => absurd ⟨rand⟩ hex⟩
  obtain ⟨rand0⟩ := hex
  -- with the same witness twice: the point of the proof
  obtain ⟨_, h0⟩ := sat_core h2 h3 ch ho hne satParams hg hh hg1 hs1 hs3 hs4 cs cs hc hv hv rfl rfl rfl _ _ 3 _ rfl rfl rfl inputs
    hin hgN _ _ rfl rfl rfl
  obtain ⟨sat, hy, -⟩ := h0 rand0
  obtain ⟨tr, ht, -⟩ := hy (snarkStart r1csHash paramsHash encodeHash) rfl
  have hval := hsame rand0 _ _ _ _ ht
  obtain ⟨f, hf⟩ := sat_core h2 h3 ch ho hne satParams hg hh hg1 hs1 hs3 hs4 cs cs' hc hv hv' hcon hinp haux _ _ 3 _ rfl rfl rfl
    inputs hin hgN _ _ rfl rfl hval
  refine ⟨f, fun rand r1 r2 r3 => ?_⟩
  obtain ⟨sat, hy, hy'⟩ := hf rand
  exact snark_of_sat ho satParams params _ cs cs' enc commit _ _ r1 r2 r3 _ _ _ sat _ _ _ hy hy'

namespace Ex103

open Ex99

/-- Parameters for the argument about the matrices. -/
def evals : EvalsParams F17 := Ex81.params

def openRand : OpenRand F17 := ⟨1, 2, 3, [(1, 2), (3, 4), (5, 6), (7, 8)]⟩

theorem nc (x u : F17) : (generateR1cs (masked x u)).numConstraints = 2 := (by decide : padTo 2 = 2)

theorem hm (x u : F17) : Nat.clog 2 (generateR1cs (masked x u)).t = 1 := by rw [masked_t, clog2]

theorem hn (x u : F17) : Nat.clog 2 (generateR1cs (masked x u)).numConstraints = 1 := by rw [nc, clog2]

theorem entries_eq (x u : F17) : (generateR1cs (masked x u)).entries = 2 := by
  have : (generateR1cs (masked x u)).entries = (generateR1cs (masked 0 0)).entries := rfl
  rw [this]
  decide +kernel

theorem memVars_eq (x u : F17) : (generateR1cs (masked x u)).memVars = 2 := by
  unfold Inst.memVars
  rw [hm, hn]
  decide

/-- The prover outputs proofs. -/
theorem proofs (x u : F17) (hx : x * x ≠ 0) (rand : Rands F17 1 1) (r1 r2 r3 : OpenRand F17) (h1 : 2 ≤ r1.bullet.length)
    (h2 : 3 ≤ r2.bullet.length) (h3 : 2 ≤ r3.bullet.length) :
    ∃ enc commit, encode evals (generateR1cs (masked x u)) [] = .ok ((enc, commit), []) ∧
      ∃ proof, createSnark ch params evals (generateR1cs (masked x u)) (masked x u) enc commit rand.1 r1 r2 r3 1 2 3 =
        .ok proof := by
  have hc1 : Nat.clog 2 (generateR1cs (masked x u)).entries = 1 := by rw [entries_eq, clog2]
  obtain ⟨enc, commit, he, -, hp⟩ := C81_partial (by decide : (2 : F17) ≠ 0) (by decide : (3 : F17) ≠ 0) params rfl rfl
    (by simp [params]) evals (masked x u) (masked_closed x u) (masked_valid x u) [x * x] rfl (.single _)
    (by rw [entries_eq]) (by rw [hm]; decide)
    (by rw [hc1]; exact ⟨rfl, by decide, by simp [evals, Ex81.params, Ex81.pc]⟩)
    (by rw [memVars_eq]; exact ⟨rfl, by decide, by simp [evals, Ex81.params, Ex81.pc]⟩)
    (by rw [hc1]; exact ⟨rfl, by decide, by simp [evals, Ex81.params, Ex81.pc]⟩)
    rand.1 (by rw [hm, hn]; exact rand.2) r1 r2 r3 (by rw [hc1]; exact h1) (by rw [hc1]; exact h2)
    (by rw [memVars_eq]; exact h3) ch 1 2 3
  exact ⟨enc, commit, he, hp fun t => (ch_ne t).1⟩

/-- The point of the first part. -/
theorem point (x u : F17) (rand : Rands F17 1 1) (sat : SatProof F17 F17) (rx ry : List F17) (tr : Transcript F17 F17)
    (h : satProve ch params (generateR1cs (masked x u)) (masked x u) rand.1 (snarkStart 1 2 3) = .ok ((sat, rx, ry), tr)) :
    ry = pointY ch 3 1 1 := by
  obtain ⟨_, h0⟩ := sat_core (by decide : (2 : F17) ≠ 0) (by decide : (3 : F17) ≠ 0) ch ch_oblivious (fun t => (ch_ne _).1) params
    rfl rfl (by simp [params]) five_spans four_spans five_spans (masked x u) (masked x u) (masked_closed x u)
    (masked_valid x u) (masked_valid x u) rfl rfl rfl 1 1 3 _ (hm x u).symm (hn x u).symm rfl [x * x] rfl (by decide) _ _ rfl rfl rfl
  obtain ⟨sat', hy, -⟩ := h0 rand
  obtain ⟨tr', ht, -⟩ := hy (snarkStart 1 2 3) rfl
  rw [ht] at h
  exact ((Prod.mk.inj (Prod.mk.inj (Prod.mk.inj (Except.ok.inj h)).1).2).2).symm

theorem pointY_eq : pointY ch 3 1 1 = [12, 8] := by decide

theorem shape : rand.Shape 0 1 := by
  have := rand_shape 3
  rwa [square_t, show (generateR1cs (square (3 : F17))).numConstraints = 1 from (by decide : padTo 1 = 1), clog2,
    Ex79.clog1] at this

/-- Random scalars for one round of the first and two of the second sum-check. -/
def rand1 : Rands F17 1 1 := ⟨{ rand with one := [⟨1, 2, [3, 4, 5, 6], 6, 7⟩] },
  ⟨shape.1, rfl, by simp, shape.4, shape.5, shape.6⟩⟩

end Ex103

open Ex99 Ex103 in
/-- C103 fails: the statement that 9 is a square, with a further free variable, has the witnesses 3, 0 and 14, 0. The
prover outputs proofs for both, with challenges chosen beforehand and blinding generators that hide, and from every
proof one computes which of the two was used. -/
theorem C103_violated : ∃ (satParams : SatParams F17) (params : EvalsParams F17) (ch : Oracle F17 F17) (cs cs' : CS F17)
    (enc : EncodeMemory F17) (commit : EncodeCommit F17) (r : OpenRand F17) (nx m : Nat) (read : SnarkProof F17 F17 → F17),
    Oblivious ch ∧ (∀ t, ch t ≠ 0) ∧ satParams.pc.gen1 = satParams.gen1 ∧ satParams.pc.genN.h = satParams.gen1.h ∧
    satParams.gen1.generators ≠ [] ∧ Spans F17 satParams.gen1.h ∧ Spans F17 satParams.gen3.h ∧ Spans F17 satParams.gen4.h ∧
    cs.Closed ∧ cs.Valid ∧ cs'.Valid ∧ cs'.constraints = cs.constraints ∧ cs'.inputs = cs.inputs ∧
    cs.aux = [3, 0] ∧ cs'.aux = [14, 0] ∧
    m = Nat.clog 2 (generateR1cs cs).t ∧ nx = Nat.clog 2 (generateR1cs cs).numConstraints ∧
    encode params (generateR1cs cs) [] = .ok ((enc, commit), []) ∧
    (∀ rand : Rands F17 nx m,
      (∃ proof, createSnark ch satParams params (generateR1cs cs) cs enc commit rand.1 r r r 1 2 3 = .ok proof) ∧
      ∀ proof, createSnark ch satParams params (generateR1cs cs) cs enc commit rand.1 r r r 1 2 3 = .ok proof →
        read proof = 3) ∧
    (∀ rand : Rands F17 nx m,
      (∃ proof, createSnark ch satParams params (generateR1cs cs) cs' enc commit rand.1 r r r 1 2 3 = .ok proof) ∧
      ∀ proof, createSnark ch satParams params (generateR1cs cs) cs' enc commit rand.1 r r r 1 2 3 = .ok proof →
        read proof = 14) ∧
    Nonempty (Rands F17 nx m) := by
  have hl : 2 ≤ openRand.bullet.length ∧ 3 ≤ openRand.bullet.length := by decide
  obtain ⟨enc, commit, he, -⟩ := proofs 3 0 (by decide) rand1 openRand openRand openRand hl.1 hl.2 hl.1
  have h14 : generateR1cs (masked 14 0) = generateR1cs (masked 3 0) := rfl
  have key : ∀ x : F17, x * x ≠ 0 → generateR1cs (masked x 0) = generateR1cs (masked 3 0) → ∀ rand : Rands F17 1 1,
      (∃ proof, createSnark ch params evals (generateR1cs (masked 3 0)) (masked x 0) enc commit rand.1 openRand openRand
        openRand 1 2 3 = .ok proof) ∧
      ∀ proof, createSnark ch params evals (generateR1cs (masked 3 0)) (masked x 0) enc commit rand.1 openRand openRand
        openRand 1 2 3 = .ok proof → proof.sat.wRy / (1 - 8) = x := by
    intro x hx hgen rand
    constructor
    · obtain ⟨enc', commit', he', proof, hp⟩ := proofs x 0 hx rand openRand openRand openRand hl.1 hl.2 hl.1
      rw [hgen] at he' hp
      rw [he] at he'
      obtain ⟨rfl, rfl⟩ := Prod.mk.inj (Prod.mk.inj (Except.ok.inj he')).1
      exact ⟨proof, hp⟩
    · intro proof hp
      obtain ⟨rx, ry, tr, hs, hw, -⟩ := C103_leak _ _ _ _ _ _ _ _ _ _ _ _ _ _ _ hp
      rw [← hgen] at hs hw
      have hy := point x 0 rand _ _ _ _ hs
      rw [pointY_eq] at hy
      rw [hw, hy, masked_t]
      show mle [x, 0] [8] / (1 - 8) = x
      have e : mle [x, 0] [(8 : F17)] = (1 - 8) * x := by
        simp [mle, Finset.sum_range_succ, eqWeight, mul_comm]
      rw [e]
      have : (1 - 8 : F17) ≠ 0 := by decide
      field_simp
  exact ⟨params, evals, ch, masked 3 0, masked 14 0, enc, commit, openRand, 1, 1, fun proof => proof.sat.wRy / (1 - 8),
    ch_oblivious, fun t => (ch_ne t).1, rfl, rfl, by simp [params], five_spans, four_spans, five_spans, masked_closed 3 0,
    masked_valid 3 0, masked_valid 14 0, rfl, by decide, rfl, rfl, (hm 3 0).symm, (hn 3 0).symm, he,
    key 3 (by decide) rfl, key 14 (by decide) h14, ⟨rand1⟩⟩

open Ex99 Ex103 in
/-- The hypotheses of C103_partial can be met by different witnesses, for which the prover outputs proofs: at the point
8 of the proof `3, 0` and `14, u` have the same value for a suitable `u`. -/
example : ∃ u : F17, (masked 3 0).aux ≠ (masked 14 u).aux ∧ ∃ enc commit, ∃ f : Rands F17 1 1 ≃ Rands F17 1 1,
    (∀ rand : Rands F17 1 1, ∃ proof, createSnark ch params evals (generateR1cs (masked 3 0)) (masked 3 0) enc commit rand.1 openRand
      openRand openRand 1 2 3 = .ok proof) ∧ ∀ (rand : Rands F17 1 1) r1 r2 r3,
    createSnark ch params evals (generateR1cs (masked 3 0)) (masked 3 0) enc commit rand.1 r1 r2 r3 1 2 3 =
      createSnark ch params evals (generateR1cs (masked 3 0)) (masked 14 u) enc commit (f rand).1 r1 r2 r3 1 2 3 := by
  have hl : 2 ≤ openRand.bullet.length ∧ 3 ≤ openRand.bullet.length := by decide
  obtain ⟨u, hu⟩ : ∃ u : F17, mle [14, u] [(8 : F17)] = mle [3, 0] [8] := by decide +kernel
  obtain ⟨enc, commit, he, -⟩ := proofs 3 0 (by decide) rand1 openRand openRand openRand hl.1 hl.2 hl.1
  have := C103_partial (by decide : (2 : F17) ≠ 0) (by decide : (3 : F17) ≠ 0) ch ch_oblivious (fun t => (ch_ne _).1) params
    rfl rfl (by simp [params]) five_spans four_spans five_spans evals (masked 3 0) (masked 14 u) (masked_closed 3 0)
    (masked_valid 3 0) (masked_valid 14 u) rfl (by show [1, (14 : F17) * 14] = [1, 3 * 3]; decide) rfl [9] (by decide)
    (by rw [hm]; decide) enc commit 1 2 3
  rw [hm, hn] at this
  obtain ⟨f, hf⟩ := this (by
    intro rand sat rx ry tr hs
    rw [point 3 0 rand _ _ _ _ hs, pointY_eq, masked_t]
    exact hu)
  refine ⟨u, ?_, enc, commit, f, ?_, hf⟩
  · intro h
    have : (3 : F17) = 14 := (List.cons.inj h).1
    revert this
    decide
  · intro rand
    obtain ⟨enc', commit', he', proof, hp⟩ := proofs 3 0 (by decide) rand openRand openRand openRand hl.1 hl.2 hl.1
    rw [he] at he'
    obtain ⟨rfl, rfl⟩ := Prod.mk.inj (Prod.mk.inj (Except.ok.inj he')).1
    exact ⟨proof, hp⟩

end Zkp.Spartan
