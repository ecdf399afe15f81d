/- C121: which verifiers give a verdict on every proof and which abort on some. -/
import Verif.Model.Groth16
import Verif.Model.Marlin
import Verif.Model.Bulletproofs
import Verif.Model.SpartanSnark
import Verif.Model.LibraZk
import Verif.Props.SpartanNizk
import Verif.Props.HyraxSound
import Mathlib.Data.ZMod.Basic

namespace Zkp.Aborts

open Zkp.Spartan Zkp.Cp Zkp.Gkr

set_option linter.unusedSectionVars false

variable {F : Type} [Field F] [DecidableEq F] {G : Type} [AddCommGroup G] [Module F G] [DecidableEq G]

/-! ### Groth16 -/

/-- C121, the part that holds: Groth16's verifier never aborts. With the right number of inputs it says yes or no to
every proof, and with a wrong number it returns an error. -/
theorem C121_partial {G1 G2 GT : Type} [AddCommGroup G1] [Module F G1] [AddCommGroup G2] [Module F G2] [AddCommGroup GT]
    [Module F GT] [DecidableEq GT] (e : G1 →ₗ[F] G2 →ₗ[F] GT) (pvk : Groth16.PreparedVerifyingKey G1 G2 GT)
    (proof : Groth16.Proof G1 G2) (inputs : List F) :
    (inputs.length + 1 = pvk.gamma_abc_g1.length → ∃ b, Groth16.verifyProof e pvk proof inputs = .ok b) ∧
    (inputs.length + 1 ≠ pvk.gamma_abc_g1.length → Groth16.verifyProof e pvk proof inputs = .error .malformedVerifyingKey) := by
  unfold Groth16.verifyProof
  cases pvk.gamma_abc_g1 with
  | nil => exact ⟨fun h => absurd h (by simp), fun _ => rfl⟩
  | cons g0 rest =>
    refine ⟨fun h => ?_, fun h => ?_⟩
    · simp only [h, ne_eq, not_true_eq_false, if_false]
      exact ⟨_, rfl⟩
    · simp only [h, ne_eq, not_false_eq_true, if_true]

/-- A key for one input; a proof that is accepted, one that is rejected, and a wrong number of inputs. -/
example :
    let pvk : Groth16.PreparedVerifyingKey F17 F17 F17 := ⟨⟨0, 0, 0, 0, []⟩, 6, -1, -1, [2, 3]⟩
    let e := LinearMap.mul F17 F17
    Groth16.verifyProof e pvk ⟨4, 4, 5⟩ [1] = .ok true ∧ Groth16.verifyProof e pvk ⟨4, 4, 6⟩ [1] = .ok false ∧
      Groth16.verifyProof e pvk ⟨4, 4, 5⟩ [1, 1] = .error .malformedVerifyingKey := by
  decide +kernel

/-! ### Marlin and Bulletproofs -/

/-- A Marlin proof without commitments makes the verifier abort, whatever the key and the inputs. -/
theorem C121_marlin {G1 G2 GT : Type} [AddCommGroup G1] [Module F G1] [AddCommGroup G2] [Module F G2] [AddCommGroup GT]
    [Module F GT] [DecidableEq GT] (mk : Nat → Option (Domain F)) (rng : Marlin.FsRng F G1 G2)
    (e : G1 →ₗ[F] G2 →ₗ[F] GT) (ivk : Marlin.IndexVerifierKey F G1 G2) (proof : Marlin.Proof F G1) (inputs : List F)
    (h : proof.commitments = []) : Marlin.verify mk rng e ivk proof inputs = .error .panic := by
  unfold Marlin.verify
  rw [h]

/-- Such a proof, with evaluations and an opening that other proofs could have. -/
example : ∃ proof : Marlin.Proof F17 F17, proof.commitments = [] ∧ proof.evaluations = [3, 5] :=
  ⟨⟨[], [3, 5], []⟩, rfl, rfl⟩

/-- A Bulletproofs proof whose lists `L_vec` and `R_vec` have different lengths makes the verifier abort. -/
theorem C121_bulletproofs (ch : Oracle F G) (gens : Bp.Generators G) (p : Bp.Proof F G) (circuit : Bp.R1csCircuit F)
    (inputs : List F) (h : p.IPP.L_vec.length ≠ p.IPP.R_vec.length) : Bp.verifyProof ch gens p circuit inputs = none := by
  unfold Bp.verifyProof Bp.ippVerify
  simp only [h, ne_eq, not_false_eq_true, if_true]
  split
  · rfl
  · split <;> rfl

/-- For proofs without that fault the verifier can answer: it rejects this one. -/
example :
    let gens : Bp.Generators F17 := ⟨[2, 3], [5, 7], 1, 4, 6, 1, 2, 1, 1⟩
    let p := fun L : List F17 => (⟨0, 0, 0, 0, 0, 0, 0, 0, 0, 0, 0, 0, 0, 0, [], [], 0, ⟨L, [5], 1, 1⟩, 0⟩ : Bp.Proof F17 F17)
    let circuit : Bp.R1csCircuit F17 := ⟨[], [], [], fun _ => none, fun _ => none, fun _ => none⟩
    Bp.verifyProof (fun _ => 3) gens (p [4]) circuit [] = some false ∧ Bp.verifyProof (fun _ => 3) gens (p []) circuit [] = none := by
  decide +kernel

/-! ### Spartan -/

/-- If the first step aborts, so does the whole. -/
theorem bind_panic {α β : Type} {x : Vf F G α} {f : α → Vf F G β} {tr : Transcript F G} (h : x tr = .error .panic) :
    (x >>= f) tr = .error .panic := by
  show (x tr >>= fun p => f p.1 p.2) = _
  rw [h]; rfl

theorem bind_ok {α β : Type} {x : Vf F G α} {f : α → Vf F G β} {tr tr' : Transcript F G} {a : α} (h : x tr = .ok (a, tr')) :
    (x >>= f) tr = f a tr' := by
  show (x tr >>= fun p => f p.1 p.2) = _
  rw [h]; rfl

theorem challenges_ok (ch : Oracle F G) (l : String) (n : Nat) : ∀ tr : Transcript F G, ∃ cs tr', challenges ch l n tr = .ok (cs, tr') := by
  induction n with
  | zero => exact fun tr => ⟨[], tr, rfl⟩
  | succ n ih =>
    intro tr
    obtain ⟨cs, tr', h⟩ := ih (tr ++ [.chal l])
    refine ⟨ch (tr ++ [.chal l]) :: cs, tr', ?_⟩
    refine Eq.trans (bind_ok (a := ch (tr ++ [.chal l])) (tr' := tr ++ [.chal l]) rfl) ?_
    exact (bind_ok h).trans rfl

/-- With no commitments to round polynomials the sum-check verifier aborts in the first round. -/
theorem sat_aborts (ch : Oracle F G) (params : SatParams G) (r1cs : Inst F) (inputs : List F) (proof : SatProof F G)
    (evals : F × F × F) (tr : Transcript F G) (hn : 2 ≤ r1cs.numConstraints) (h : proof.proofOne.commPolys = []) :
    satVerify ch params r1cs inputs proof evals tr = .error .panic := by
  unfold satVerify
  by_cases hi : inputs.length + 1 ≤ r1cs.t
  · refine Eq.trans (bind_ok (a := ()) (tr' := tr) (by simp only [ensure, hi, decide_true, if_true]; rfl)) ?_
    refine Eq.trans (bind_ok (a := ()) rfl) ?_
    refine Eq.trans (bind_ok (a := ()) rfl) ?_
    obtain ⟨tau, tr', ht⟩ := challenges_ok ch "challenge_tau" (Nat.clog 2 r1cs.numConstraints) ((tr ++ [Msg.frs "r1cs_input"
      (1 :: inputs ++ List.replicate (r1cs.t - inputs.length - 1) 0)]) ++ [.pts "poly_commitment" proof.commitWitness])
    refine Eq.trans (bind_ok ht) ?_
    refine bind_panic ?_
    have hp : 0 < Nat.clog 2 r1cs.numConstraints := Nat.clog_pos (by decide) hn
    obtain ⟨k, hk⟩ := Nat.exists_eq_succ_of_ne_zero hp.ne'
    unfold scVerify
    rw [hk]
    unfold scRounds
    refine bind_panic ?_
    rw [h]; rfl
  · exact bind_panic (by simp only [ensure, hi, decide_false]; rfl)

/-- A proof without commitments to round polynomials makes `verify_nizk_proof` abort, for every instance with at least two
constraints. -/
theorem C121_nizk (ch : Oracle F G) (params : SatParams G) (r1cs : Inst F) (inputs : List F) (proof : NizkProof F G)
    (r1csHash paramsHash : F) (hn : 2 ≤ r1cs.numConstraints) (h : proof.sat.proofOne.commPolys = []) :
    verifyNizk ch params r1cs inputs proof r1csHash paramsHash = .error .panic := by
  unfold verifyNizk
  split
  · rw [sat_aborts ch params r1cs inputs proof.sat _ _ hn h]
  · rfl

/-- And `verify_snark_proof`. -/
theorem C121_snark (ch : Oracle F G) (params : SatParams G) (evalParams : EvalsParams G) (r1cs : Inst F) (inputs : List F)
    (proof : SnarkProof F G) (commit : EncodeCommit G) (r1csHash paramsHash encodeHash : F)
    (hn : 2 ≤ r1cs.numConstraints) (h : proof.sat.proofOne.commPolys = []) :
    verifySnark ch params evalParams r1cs inputs proof commit r1csHash paramsHash encodeHash = .error .panic := by
  unfold verifySnark
  simp only
  rw [bind_panic (sat_aborts ch params r1cs inputs proof.sat proof.evals _ hn h)]

/-- An instance with two constraints and such a proof. -/
example (params : SatParams F17) (h h' : F17) : verifyNizk (fun _ => 3) params
    ⟨1, 1, 2, [[(1, .input 0)], [(1, .aux 0)]], [[(1, .input 0)], [(1, .aux 0)]], [[(1, .input 0)], [(1, .aux 0)]]⟩ []
    ⟨{ zeroSat 1 2 with proofOne := ⟨[], [], []⟩ }, [1], [1, 1]⟩ h h' = .error .panic :=
  C121_nizk _ _ _ _ _ _ _ le_rfl rfl

/-! ### Hyrax and Libra: a verdict is never negative -/

/-- Every way for the step to stop is a panic. -/
def OnlyPanics {α : Type} (x : Vf F G α) : Prop := ∀ tr e, x tr = .error e → e = .panic

theorem OnlyPanics.bind {α β : Type} {x : Vf F G α} {f : α → Vf F G β} (hx : OnlyPanics x) (hf : ∀ a, OnlyPanics (f a)) :
    OnlyPanics (x >>= f) := by
  intro tr e h
  cases hr : x tr with
  | error e' =>
    have : (x >>= f) tr = .error e' := by
      show (x tr >>= fun p => f p.1 p.2) = _
      rw [hr]; rfl
    rw [this] at h
    cases h
    exact hx _ _ hr
  | ok p =>
    obtain ⟨a, t⟩ := p
    rw [bind_ok hr] at h
    exact hf a _ _ h

theorem OnlyPanics.pure {α : Type} (a : α) : OnlyPanics (Pure.pure a : Vf F G α) := fun _ _ h => nomatch h

theorem OnlyPanics.say (m : Msg F G) : OnlyPanics (Spartan.say m) := fun _ _ h => nomatch h

theorem OnlyPanics.challenge (ch : Oracle F G) (l : String) : OnlyPanics (Spartan.challenge ch l) := fun _ _ h => nomatch h

theorem OnlyPanics.challenges (ch : Oracle F G) (l : String) (n : Nat) : OnlyPanics (Spartan.challenges ch l n) := by
  intro tr e h
  obtain ⟨cs, tr', h'⟩ := challenges_ok ch l n tr
  rw [h'] at h; cases h

theorem OnlyPanics.ensure (b : Bool) : OnlyPanics (Spartan.ensure .panic b : Vf F G Unit) := by
  intro tr e h
  cases b
  · exact (Except.error.inj h).symm
  · exact nomatch h

theorem OnlyPanics.orPanic {α : Type} (o : Option α) : OnlyPanics (Spartan.orPanic o : Vf F G α) := by
  intro tr e h
  cases o
  · exact (Except.error.inj h).symm
  · exact nomatch h

theorem OnlyPanics.asserted {α : Type} (x : Vf F G α) : OnlyPanics (Lz.asserted x) := by
  intro tr e h
  unfold Lz.asserted at h
  split at h
  · cases h
  · exact (Except.error.inj h).symm

theorem OnlyPanics.bullet (ch : Oracle F G) (L R : List G) : OnlyPanics (bulletChallenges ch L R) := by
  induction L generalizing R with
  | nil => exact OnlyPanics.pure _
  | cons l L ih =>
    cases R with
    | nil => exact OnlyPanics.pure _
    | cons r R =>
      exact (OnlyPanics.say _).bind fun _ => (OnlyPanics.say _).bind fun _ => (OnlyPanics.challenge _ _).bind fun _ =>
        (OnlyPanics.ensure _).bind fun _ => (ih R).bind fun _ => OnlyPanics.pure _

theorem OnlyPanics.eq (ch : Oracle F G) (params : MultiParams G) (a b : G) (p : EqProof F G) : OnlyPanics (eqVerify ch params a b p) :=
  (OnlyPanics.say _).bind fun _ => (OnlyPanics.say _).bind fun _ => (OnlyPanics.say _).bind fun _ =>
    (OnlyPanics.challenge _ _).bind fun _ => OnlyPanics.pure _

theorem OnlyPanics.product (ch : Oracle F G) (params : MultiParams G) (proof : ProdProof F G) (a b c : G) :
    OnlyPanics (productVerify ch params proof a b c) :=
  (OnlyPanics.orPanic _).bind fun _ => (OnlyPanics.orPanic _).bind fun _ => (OnlyPanics.orPanic _).bind fun _ =>
    (OnlyPanics.orPanic _).bind fun _ => (OnlyPanics.orPanic _).bind fun _ =>
    (OnlyPanics.say _).bind fun _ => (OnlyPanics.say _).bind fun _ => (OnlyPanics.say _).bind fun _ =>
    (OnlyPanics.say _).bind fun _ => (OnlyPanics.say _).bind fun _ => (OnlyPanics.say _).bind fun _ =>
    (OnlyPanics.challenge _ _).bind fun _ => OnlyPanics.pure _

theorem OnlyPanics.eval (ch : Oracle F G) (params : PcParams G) (ry : List F) (commits : List G) (c : G) (proof : DotProof F G) :
    OnlyPanics (evalVerify ch params ry commits c proof) :=
  (OnlyPanics.say _).bind fun _ => (OnlyPanics.say _).bind fun _ =>
    ((OnlyPanics.ensure _).bind fun _ => (OnlyPanics.bullet _ _ _).bind fun _ => (OnlyPanics.ensure _).bind fun _ =>
      (OnlyPanics.ensure _).bind fun _ => OnlyPanics.pure _).bind fun _ =>
    (OnlyPanics.say _).bind fun _ => (OnlyPanics.say _).bind fun _ => (OnlyPanics.challenge _ _).bind fun _ =>
    (OnlyPanics.orPanic _).bind fun _ => OnlyPanics.pure _

theorem OnlyPanics.input (ch : Oracle F G) (params : Hx.Params G) (com : List G) (prod : DotProof F G) (y : G) (eq : EqProof F G)
    (ins qa q : List F) (comm : G) : OnlyPanics (Hx.inputVerify ch params com prod y eq ins qa q comm) :=
  (OnlyPanics.ensure _).bind fun _ => (OnlyPanics.eval _ _ _ _ _ _).bind fun _ => (OnlyPanics.ensure _).bind fun _ =>
    (OnlyPanics.orPanic _).bind fun _ => (OnlyPanics.eq _ _ _ _ _).bind fun _ => OnlyPanics.ensure _

theorem OnlyPanics.rounds (ch : Oracle F G) (proof : Hx.ZkProof F G) (k j : Nat) (a : G) : OnlyPanics (Hx.zkRounds ch proof k j a) := by
  induction k generalizing j a with
  | zero => exact OnlyPanics.pure _
  | succ k ih =>
    exact (OnlyPanics.orPanic _).bind fun _ => (OnlyPanics.orPanic _).bind fun _ => (OnlyPanics.say _).bind fun _ =>
      (OnlyPanics.challenge _ _).bind fun _ => (OnlyPanics.say _).bind fun _ => (OnlyPanics.say _).bind fun _ =>
      (ih _ _).bind fun _ => OnlyPanics.pure _

theorem OnlyPanics.deltas (ds : List G) : OnlyPanics (Hx.sayDeltas ds : Vf F G Unit) := by
  induction ds with
  | nil => exact OnlyPanics.pure _
  | cons d ds ih => exact (OnlyPanics.say _).bind fun _ => ih

theorem OnlyPanics.layer (ch : Oracle F G) (params : Hx.Params G) (proof : Hx.ZkProof F G) (a : G) (u0 u1 : F) (qa ql qr : List F)
    (gates : List Gate) (n ng : Nat) : OnlyPanics (Hx.zkVerify ch params proof a u0 u1 qa ql qr gates n ng) :=
  (OnlyPanics.rounds _ _ _ _ _).bind fun _ => (OnlyPanics.orPanic _).bind fun _ =>
    ((OnlyPanics.product _ _ _ _ _ _).bind fun _ => (OnlyPanics.ensure _).bind fun _ => (OnlyPanics.deltas _).bind fun _ =>
      (OnlyPanics.challenges _ _ _).bind fun _ => (OnlyPanics.say _).bind fun _ => (OnlyPanics.challenge _ _).bind fun _ =>
      (OnlyPanics.orPanic _).bind fun _ => (OnlyPanics.ensure _).bind fun _ => (OnlyPanics.ensure _).bind fun _ =>
      OnlyPanics.ensure _).bind fun _ => OnlyPanics.pure _

theorem OnlyPanics.layers (ch : Oracle F G) (params : Hx.Params G) (proofs : List (Hx.ZkProof F G)) (c : Circuit) (n k d : Nat)
    (st : Hx.St F G) : OnlyPanics (Hx.layersVerify ch params proofs c n k d st) := by
  induction k generalizing d st with
  | zero => exact OnlyPanics.pure _
  | succ k ih =>
    refine (OnlyPanics.orPanic _).bind fun _ => (OnlyPanics.orPanic _).bind fun _ => (OnlyPanics.orPanic _).bind fun _ =>
      (OnlyPanics.layer _ _ _ _ _ _ _ _ _ _ _ _).bind fun _ => ?_
    by_cases h : d < c.depth - 2
    · simp only [h, if_true]
      exact (OnlyPanics.challenge _ _).bind fun _ => (OnlyPanics.challenge _ _).bind fun _ => (OnlyPanics.say _).bind fun _ => ih _ _
    · simp only [h, if_false]
      exact ih _ _

theorem OnlyPanics.instances (is os : List (List F)) : OnlyPanics (Hx.sayInstances is os : Vf F G Unit) := by
  induction os generalizing is with
  | nil => cases is <;> exact OnlyPanics.pure _
  | cons o os ih =>
    cases is with
    | nil => exact fun _ _ h => (Except.error.inj h).symm
    | cons i is => exact (OnlyPanics.say _).bind fun _ => (OnlyPanics.say _).bind fun _ => ih is

/-- Hyrax's verifier accepts or aborts: there is no proof that it rejects. -/
theorem C121_hyrax (ch : Oracle F G) (params : Hx.Params G) (proof : Hx.HyraxProof F G) (outputs inputs : List (List F))
    (c : Circuit) (circuitHash paramHash : F) (tr : Transcript F G) :
    (∃ tr', Hx.verify ch params proof outputs inputs c circuitHash paramHash tr = .ok ((), tr')) ∨
      Hx.verify ch params proof outputs inputs c circuitHash paramHash tr = .error .panic := by
  have h : OnlyPanics (Hx.verify ch params proof outputs inputs c circuitHash paramHash) :=
    (OnlyPanics.say _).bind fun _ => (OnlyPanics.say _).bind fun _ => (OnlyPanics.ensure _).bind fun _ =>
      (OnlyPanics.ensure _).bind fun _ => (OnlyPanics.instances _ _).bind fun _ => (OnlyPanics.say _).bind fun _ =>
      ((OnlyPanics.orPanic _).bind fun _ => (OnlyPanics.challenges _ _ _).bind fun _ => (OnlyPanics.ensure _).bind fun _ =>
        (OnlyPanics.challenges _ _ _).bind fun _ => OnlyPanics.pure _).bind fun _ =>
      (OnlyPanics.say _).bind fun _ => (OnlyPanics.ensure _).bind fun _ => (OnlyPanics.layers _ _ _ _ _ _ _ _).bind fun _ =>
      (OnlyPanics.input _ _ _ _ _ _ _ _ _ _).bind fun _ => OnlyPanics.input _ _ _ _ _ _ _ _ _ _
  cases hr : Hx.verify ch params proof outputs inputs c circuitHash paramHash tr with
  | ok p => exact .inl ⟨p.2, rfl⟩
  | error e => rw [h _ _ hr]; exact .inr rfl

/-- A Hyrax proof without layers makes the verifier abort for every circuit with at least one layer of gates. -/
theorem C121_hyrax_short (ch : Oracle F G) (params : Hx.Params G) (proof : Hx.HyraxProof F G) (outputs inputs : List (List F))
    (c : Circuit) (circuitHash paramHash : F) (tr : Transcript F G) (hd : 2 ≤ c.depth) (h : proof.proofs = []) :
    Hx.verify ch params proof outputs inputs c circuitHash paramHash tr = .error .panic := by
  refine (C121_hyrax ch params proof outputs inputs c circuitHash paramHash tr).resolve_left ?_
  rintro ⟨tr', hok⟩
  obtain ⟨_, _, -, hok⟩ := bind_inv hok
  obtain ⟨_, _, -, hok⟩ := bind_inv hok
  obtain ⟨_, _, -, hok⟩ := bind_inv hok
  obtain ⟨_, _, -, hok⟩ := bind_inv hok
  obtain ⟨_, _, -, hok⟩ := bind_inv hok
  obtain ⟨_, _, -, hok⟩ := bind_inv hok
  obtain ⟨_, _, -, hok⟩ := bind_inv hok
  obtain ⟨_, _, -, hok⟩ := bind_inv hok
  obtain ⟨_, _, -, hok⟩ := bind_inv hok
  obtain ⟨_, _, hl, -⟩ := bind_inv hok
  obtain ⟨k, hk⟩ : ∃ k, c.depth - 1 = k + 1 := ⟨c.depth - 2, by omega⟩
  rw [hk, h] at hl
  obtain ⟨_, _, -, hl⟩ := bind_inv hl
  obtain ⟨_, _, hl, -⟩ := bind_inv hl
  exact nomatch (orPanic_inv hl).1

/-- The zero proof of C53 is accepted for this circuit; without its layer the verifier aborts. -/
example : (∃ tr', Hx.verify Hx.exCh Hx.exParams (Hx.zeroProof 8 1 1) [[5], [5]] [[0], [0]] exMul 1 2 [] = .ok ((), tr')) ∧
    Hx.verify Hx.exCh Hx.exParams (Hx.zeroProof 8 0 1) [[5], [5]] [[0], [0]] exMul 1 2 [] = .error .panic := by
  refine ⟨?_, C121_hyrax_short _ _ _ _ _ _ _ _ _ (by decide) rfl⟩
  have h : (match Hx.verify Hx.exCh Hx.exParams (Hx.zeroProof 8 1 1) [[5], [5]] [[0], [0]] exMul 1 2 [] with
    | .ok _ => true | .error _ => false) = true := by decide +kernel
  split at h
  · next p hp => exact ⟨p.2, hp⟩
  · cases h

theorem OnlyPanics.output (ch : Oracle F G) (output : List F) (b : Nat) : OnlyPanics (evalOutput ch output b) :=
  (OnlyPanics.ensure _).bind fun _ => (OnlyPanics.challenges _ _ _).bind fun _ => (OnlyPanics.orPanic _).bind fun _ => OnlyPanics.pure _

theorem OnlyPanics.zkLayers (ch : Oracle F G) (params : Hx.Params G) (ps : List (Lz.ZkLayer F G)) :
    ∀ (items : List (List Gate × Nat)) (gu gv : List F) (alpha beta : F) (c : G),
      OnlyPanics (Lz.zkLayersVerify ch params ps items gu gv alpha beta c) := by
  induction ps with
  | nil => intros; exact OnlyPanics.pure _
  | cons p ps ih =>
    intro items gu gv alpha beta c
    cases items with
    | nil => exact OnlyPanics.pure _
    | cons it items =>
      unfold Lz.zkLayersVerify
      refine OnlyPanics.bind ((OnlyPanics.asserted _).bind fun _ => (OnlyPanics.say _).bind fun _ => (OnlyPanics.asserted _).bind fun _ =>
        (OnlyPanics.say _).bind fun _ => (OnlyPanics.product _ _ _ _ _ _).bind fun _ => (OnlyPanics.ensure _).bind fun _ =>
        (OnlyPanics.orPanic _).bind fun _ => (OnlyPanics.eq _ _ _ _ _).bind fun _ => (OnlyPanics.ensure _).bind fun _ =>
        OnlyPanics.pure _) fun _ => ?_
      cases ps with
      | nil => exact OnlyPanics.pure _
      | cons q qs => exact (OnlyPanics.challenge _ _).bind fun _ => (OnlyPanics.challenge _ _).bind fun _ => ih _ _ _ _ _ _

/-- Libra's zero-knowledge verifier returns `true` or aborts. -/
theorem C121_libra_zk (ch : Oracle F G) (params : Hx.Params G) (c : Circuit) (outputs inputs : List F)
    (circuitHash paramsHash : F) (proof : Lz.ZkGkrProof F G) :
    Lz.zkVerify ch params c outputs inputs circuitHash paramsHash proof = .ok true ∨
      Lz.zkVerify ch params c outputs inputs circuitHash paramsHash proof = .error .panic := by
  have h : OnlyPanics (Lz.zkVerifyRun ch params c outputs inputs proof) :=
    (OnlyPanics.say _).bind fun _ => (OnlyPanics.ensure _).bind fun _ => (OnlyPanics.orPanic _).bind fun _ =>
      (OnlyPanics.output _ _ _).bind fun _ => (OnlyPanics.ensure _).bind fun _ => (OnlyPanics.zkLayers _ _ _ _ _ _ _ _ _).bind fun _ =>
      (OnlyPanics.orPanic _).bind fun _ => (OnlyPanics.ensure _).bind fun _ => (OnlyPanics.ensure _).bind fun _ =>
      (OnlyPanics.input _ _ _ _ _ _ _ _ _ _).bind fun _ => OnlyPanics.input _ _ _ _ _ _ _ _ _ _
  unfold Lz.zkVerify
  split
  · exact .inl rfl
  · next e he => rw [h _ _ he]; exact .inr rfl

/-- It aborts when the number of layers in the proof is wrong. -/
theorem C121_libra_zk_length (ch : Oracle F G) (params : Hx.Params G) (c : Circuit) (outputs inputs : List F)
    (circuitHash paramsHash : F) (proof : Lz.ZkGkrProof F G) (h : c.depth - 1 ≠ proof.proofs.length) :
    Lz.zkVerify ch params c outputs inputs circuitHash paramsHash proof = .error .panic := by
  refine (C121_libra_zk ch params c outputs inputs circuitHash paramsHash proof).resolve_left ?_
  intro hok
  unfold Lz.zkVerify at hok
  split at hok
  · next p hp =>
    obtain ⟨u, t⟩ := p
    obtain ⟨_, _, -, hp⟩ := bind_inv hp
    obtain ⟨_, _, -, hp⟩ := bind_inv hp
    obtain ⟨_, _, -, hp⟩ := bind_inv hp
    obtain ⟨_, _, -, hp⟩ := bind_inv hp
    obtain ⟨_, _, he, -⟩ := bind_inv hp
    exact h (of_decide_eq_true (ensure_inv he).1)
  · cases hok

/-- So does the verifier without zero knowledge. -/
theorem C121_libra_length (ch : Oracle F G) (c : Circuit) (outputs inputs : List F) (hash : F) (proofs : List (Gkr.LayerProof F))
    (h : c.depth - 1 ≠ proofs.length) : linearVerify ch c outputs inputs hash proofs = .error .panic := by
  have hp : OnlyPanics (ensure .panic (decide (c.depth - 1 = proofs.length)) : Vf F G Unit) := OnlyPanics.ensure _
  have key : ∀ tr : Transcript F G, linearRun ch c outputs inputs proofs tr = .error .panic := by
    intro tr
    unfold linearRun
    by_cases h1 : 1 ≤ c.depth
    · refine Eq.trans (bind_ok (a := ()) (tr' := tr) (by simp only [ensure, h1, decide_true, if_true]; rfl)) ?_
      cases h2 : c.layers[c.depth - 1]? with
      | none => exact bind_panic rfl
      | some last =>
        refine Eq.trans (bind_ok (a := last) (tr' := tr) rfl) ?_
        cases h3 : evalOutput ch outputs last.bitSize tr with
        | error e => exact bind_panic (by rw [h3, OnlyPanics.output _ _ _ _ _ h3])
        | ok p =>
          obtain ⟨a, t⟩ := p
          refine Eq.trans (bind_ok h3) ?_
          exact bind_panic (by simp only [ensure, h, decide_false]; rfl)
    · exact bind_panic (by simp only [ensure, h1, decide_false]; rfl)
  unfold linearVerify
  rw [key]

/-! ### The violation -/

/-- The statement for the verifiers of Spartan, Hyrax and Libra: no proof makes them abort. -/
def C121_statement (F G : Type) [Field F] [DecidableEq F] [AddCommGroup G] [Module F G] [DecidableEq G] : Prop :=
  (∀ (ch : Oracle F G) params r1cs inputs (proof : NizkProof F G) h h',
    verifyNizk ch params r1cs inputs proof h h' ≠ .error .panic) ∧
  (∀ (ch : Oracle F G) params (proof : Hx.HyraxProof F G) outputs inputs c h h' tr,
    Hx.verify ch params proof outputs inputs c h h' tr ≠ .error .panic) ∧
  (∀ (ch : Oracle F G) params c outputs inputs h h' (proof : Lz.ZkGkrProof F G),
    Lz.zkVerify ch params c outputs inputs h h' proof ≠ .error .panic)

/-- Each of the three parts is false. -/
theorem C121_violated :
    (∀ (ch : Oracle F G) params inputs h h', ∃ (r1cs : Inst F) (proof : NizkProof F G),
      verifyNizk ch params r1cs inputs proof h h' = .error .panic) ∧
    (∀ (ch : Oracle F G) params outputs inputs h h' tr, ∃ (c : Circuit) (proof : Hx.HyraxProof F G),
      Circuit.new 1 1 [[(1, 0, 1)]] = .ok c ∧ Hx.verify ch params proof outputs inputs c h h' tr = .error .panic) ∧
    (∀ (ch : Oracle F G) params outputs inputs h h', ∃ (c : Circuit) (proof : Lz.ZkGkrProof F G),
      Circuit.new 1 1 [[(1, 0, 1)]] = .ok c ∧ Lz.zkVerify ch params c outputs inputs h h' proof = .error .panic) :=
  ⟨fun ch params inputs h h' => ⟨⟨1, 1, 2, [[], []], [[], []], [[], []]⟩, ⟨{ zeroSat 1 2 with proofOne := ⟨[], [], []⟩ }, [], []⟩,
      C121_nizk ch params _ inputs _ h h' le_rfl rfl⟩,
    fun ch params outputs inputs h h' tr => ⟨exMul, Hx.zeroProof 1 0 1, exMul_new,
      C121_hyrax_short ch params _ outputs inputs _ h h' tr (by decide) rfl⟩,
    fun ch params outputs inputs h h' => ⟨exMul, ⟨[], [], ⟨[], [], 0, 0, 0, 0⟩, 0, ⟨0, 0⟩, ⟨[], [], 0, 0, 0, 0⟩, 0, ⟨0, 0⟩⟩,
      exMul_new, C121_libra_zk_length ch params _ outputs inputs h h' _
        (show exMul.depth - 1 ≠ 0 by decide)⟩⟩

theorem C121_statement_false : ¬C121_statement F G := fun h => by
  obtain ⟨c, proof, -, e⟩ := (C121_violated (F := F) (G := G)).2.1 (fun _ => 0)
    ⟨⟨0, [], 0⟩, ⟨0, [], 0⟩, ⟨0, [], 0⟩, ⟨0, ⟨0, [], 0⟩, ⟨0, [], 0⟩⟩⟩ [[5], [5]] [[0], [0]] 0 0 []
  exact h.2.1 _ _ _ _ _ _ _ _ _ e

end Zkp.Aborts
