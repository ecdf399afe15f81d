/- C44: a forgery against Spartan's NIZK verifier. -/
import Verif.Spec.SpartanSat
import Verif.Proof.SpartanRun
import Verif.Props.Multilinear
import Verif.Proof.F17

namespace Zkp.Spartan

open Zkp.Ml

set_option linter.unusedSectionVars false
set_option linter.unusedSimpArgs false

variable {F : Type} [Field F] {G : Type} [AddCommGroup G] [Module F G] [DecidableEq F] [DecidableEq G]

/-! ### The forged proof: all commitments and answers are zero -/

/-- A round answer of zeros. -/
def zeroEval (size : Nat) : ScEvalProof F G := ⟨0, 0, List.replicate size 0, 0, 0⟩

/-- A sum-check proof of zeros. -/
def zeroSc (rounds size : Nat) : ScProof F G :=
  ⟨List.replicate rounds 0, List.replicate rounds 0, List.replicate rounds (zeroEval size)⟩

/-- A satisfiability proof of zeros. -/
def zeroSat (nx ny : Nat) : SatProof F G :=
  { commitWitness := []
    proofOne := zeroSc nx 4
    proofTwo := zeroSc ny 3
    wRy := 0
    dot := ⟨[], [], 0, 0, 0, 0⟩
    va := 0, vb := 0, vc := 0, prod := 0
    know := ⟨0, 0, 0⟩
    product := ⟨0, 0, 0, [0, 0, 0, 0, 0]⟩
    eq1 := ⟨0, 0⟩
    eq2 := ⟨0, 0⟩
    commitRy := 0 }

theorem msm_zero (gs : List G) (n : Nat) : msm gs (List.replicate n (0 : F)) = 0 := by
  unfold msm
  induction gs generalizing n with
  | nil => simp
  | cons g gs ih =>
    cases n with
    | zero => simp
    | succ n => rw [List.replicate_succ, List.zipWith_cons_cons, List.sum_cons, ih]; simp

theorem commitVec_zero (gs : List G) (n : Nat) (h : G) : commitVec gs (List.replicate n (0 : F)) h 0 = 0 := by
  simp [commitVec, msm_zero]

theorem commitVec_zero1 (gs : List G) (h : G) : commitVec gs [(0 : F)] h 0 = 0 := commitVec_zero gs 1 h

theorem zero_sum (n : Nat) (l : List F) : (List.zipWith (· * ·) (List.replicate n (0 : F)) l).sum = 0 := by
  induction n generalizing l with
  | zero => simp
  | succ n ih =>
    cases l with
    | nil => simp
    | cons x l => rw [List.replicate_succ, List.zipWith_cons_cons, List.sum_cons, ih]; simp

theorem scEval_zero (ch : Oracle F G) (gen1 genN : MultiParams G) (r : F) (size : Nat) :
    Succeeds (scEvalVerify ch gen1 genN 0 0 0 (zeroEval size) r size) (fun b => b = true) := by
  unfold scEvalVerify
  refine (Succeeds.challenge ch _).bind fun w0 _ => (Succeeds.challenge ch _).bind fun w1 _ =>
    (Succeeds.say _).bind fun _ _ => (Succeeds.say _).bind fun _ _ => (Succeeds.say _).bind fun _ _ =>
    (Succeeds.say _).bind fun _ _ => (Succeeds.challenge ch _).bind fun c _ =>
    (Succeeds.ensure _ (by simp [zeroEval])).bind fun _ _ => Succeeds.pure ?_
  simp only [zeroEval, zero_sum, commitVec_zero, commitVec_zero1, smul_zero, add_zero, decide_true,
    Bool.and_self]

theorem scRounds_zero (ch : Oracle F G) (gen1 genN : MultiParams G) (rounds size : Nat) :
    ∀ k i, i + k ≤ rounds → Succeeds (scRounds ch gen1 genN (zeroSc rounds size) size k i 0)
      (fun p => p.1.length = k ∧ p.2 = 0) := by
  intro k
  induction k with
  | zero => intro i _; exact Succeeds.pure ⟨rfl, rfl⟩
  | succ k ih =>
    intro i hi
    rw [scRounds]
    refine (Succeeds.orPanic (a := 0) (by simp [zeroSc, show i < rounds by omega])).bind fun a ha => ?_
    refine (Succeeds.orPanic (a := 0) (by simp [zeroSc, show i < rounds by omega])).bind fun b hb => ?_
    refine (Succeeds.orPanic (a := zeroEval size) (by simp [zeroSc, show i < rounds by omega])).bind fun p hp => ?_
    subst ha hb hp
    refine (Succeeds.say _).bind fun _ _ => (Succeeds.challenge ch _).bind fun r _ =>
      (Succeeds.say _).bind fun _ _ => (Succeeds.say _).bind fun _ _ =>
      (scEval_zero ch gen1 genN r size).bind fun ok hok => (Succeeds.ensure _ hok).bind fun _ _ =>
      (ih (i + 1) (by omega)).bind fun q hq => Succeeds.pure ⟨by simp [hq.1], hq.2⟩

theorem eq_zero (ch : Oracle F G) (params : MultiParams G) :
    Succeeds (eqVerify ch params 0 0 ⟨0, 0⟩) (fun b => b = true) := by
  unfold eqVerify
  exact (Succeeds.say _).bind fun _ _ => (Succeeds.say _).bind fun _ _ => (Succeeds.say _).bind fun _ _ =>
    (Succeeds.challenge ch _).bind fun c _ => Succeeds.pure (by simp)

theorem inner_zero (ch : Oracle F G) (params : PcParams G) (ry : List F) (hg : params.genN.generators ≠ [])
    (h1 : params.gen1.generators ≠ []) :
    Succeeds (innerProductVerify ch params ry [] 0 ⟨[], [], 0, 0, 0, 0⟩) (fun b => b = true) := by
  unfold innerProductVerify bulletVerify
  refine (Succeeds.say _).bind fun _ _ => (Succeeds.say _).bind fun _ _ => (Succeeds.say _).bind fun _ _ => ?_
  refine Succeeds.bind (P := fun p => p.2.2 = 0) ?_ fun p hp => ?_
  · refine (Succeeds.ensure _ (by simp)).bind fun _ _ =>
      Succeeds.bind (P := fun xs => xs = []) (Succeeds.pure rfl) fun xs hxs => ?_
    subst hxs
    refine (Succeeds.ensure _ ?_).bind fun _ _ => (Succeeds.ensure _ ?_).bind fun _ _ => Succeeds.pure ?_
    · simpa [evalEq_length] using Nat.one_le_two_pow
    · simpa using Nat.succ_le_of_lt (List.length_pos_iff.2 hg)
    · simp [commitVec, msm]
  · obtain ⟨a, b, c⟩ := p
    simp only at hp
    subst hp
    obtain ⟨g, gs, hgs⟩ := List.exists_cons_of_ne_nil h1
    exact (Succeeds.say _).bind fun _ _ => (Succeeds.say _).bind fun _ _ => (Succeeds.challenge ch _).bind
      fun c _ => (Succeeds.orPanic (a := g) (by rw [hgs]; rfl)).bind fun g _ => Succeeds.pure (by simp)

/-- With matrix evaluations zero the proof of zeros passes, for every oracle, instance and inputs. -/
theorem sat_zero (ch : Oracle F G) (params : SatParams G) (r1cs : Inst F) (inputs : List F)
    (hin : inputs.length + 1 ≤ r1cs.t) (hg : params.pc.genN.generators ≠ [])
    (h1 : params.pc.gen1.generators ≠ []) :
    Succeeds (satVerify ch params r1cs inputs
      (zeroSat (Nat.clog 2 r1cs.numConstraints) (Nat.clog 2 r1cs.t + 1)) (0, 0, 0))
      (fun p => p.1.length = Nat.clog 2 r1cs.numConstraints ∧ p.2.length = Nat.clog 2 r1cs.t + 1) := by
  unfold satVerify scVerify
  refine (Succeeds.ensure _ (by simpa using hin)).bind fun _ _ => (Succeeds.say _).bind fun _ _ =>
    (Succeeds.say _).bind fun _ _ => (Succeeds.challenges ch _ _).bind fun tau htau => ?_
  rw [commitVec_zero1]
  refine (scRounds_zero ch _ _ _ 4 _ 0 (by simp)).bind fun p hp => ?_
  obtain ⟨rx, evalX⟩ := p
  obtain ⟨hrx, hx⟩ := hp
  simp only at hrx hx
  subst hx
  refine Succeeds.bind (P := fun b => b = true) ?_ fun b hb => (Succeeds.ensure _ hb).bind fun _ _ => ?_
  · unfold knowledgeVerify
    exact (Succeeds.say _).bind fun _ _ => (Succeeds.say _).bind fun _ _ => (Succeeds.challenge ch _).bind
      fun c _ => Succeeds.pure (by simp [zeroSat, commitVec_zero1])
  refine Succeeds.bind (P := fun b => b = true) ?_ fun b hb => (Succeeds.ensure _ hb).bind fun _ _ => ?_
  · unfold productVerify
    refine (Succeeds.orPanic (a := 0) rfl).bind fun _ e1 => (Succeeds.orPanic (a := 0) rfl).bind fun _ e2 =>
      (Succeeds.orPanic (a := 0) rfl).bind fun _ e3 => (Succeeds.orPanic (a := 0) rfl).bind fun _ e4 =>
      (Succeeds.orPanic (a := 0) rfl).bind fun _ e5 => (Succeeds.say _).bind fun _ _ =>
      (Succeeds.say _).bind fun _ _ => (Succeeds.say _).bind fun _ _ => (Succeeds.say _).bind fun _ _ =>
      (Succeeds.say _).bind fun _ _ => (Succeeds.say _).bind fun _ _ => (Succeeds.challenge ch _).bind
      fun c _ => Succeeds.pure ?_
    subst e1 e2 e3 e4 e5
    simp [zeroSat, commitVec_zero1]
  refine (Succeeds.say _).bind fun _ _ => (Succeeds.say _).bind fun _ _ => (Succeeds.say _).bind fun _ _ =>
    (Succeeds.say _).bind fun _ _ => ?_
  refine (Succeeds.orPanic (by unfold evalEqXY; rw [if_neg (by simp [hrx, htau])])).bind fun eq _ => ?_
  refine Succeeds.bind (P := fun b => b = true) ?_ fun b hb => (Succeeds.ensure _ hb).bind fun _ _ => ?_
  · have := eq_zero ch params.gen1
    simpa [zeroSat] using this
  refine (Succeeds.challenge ch _).bind fun ra _ => (Succeeds.challenge ch _).bind fun rb _ =>
    (Succeeds.challenge ch _).bind fun rc _ => ?_
  have hcl : ra • (zeroSat (Nat.clog 2 r1cs.numConstraints) (Nat.clog 2 r1cs.t + 1) : SatProof F G).va +
      rb • (zeroSat (Nat.clog 2 r1cs.numConstraints) (Nat.clog 2 r1cs.t + 1) : SatProof F G).vb +
      rc • (zeroSat (Nat.clog 2 r1cs.numConstraints) (Nat.clog 2 r1cs.t + 1) : SatProof F G).vc = 0 := by
    simp [zeroSat]
  rw [hcl]
  refine (scRounds_zero ch _ _ _ 3 _ 0 (by simp)).bind fun p hp => ?_
  obtain ⟨ry, evalY⟩ := p
  obtain ⟨hry, hy⟩ := hp
  simp only at hry hy
  subst hy
  refine Succeeds.bind (P := fun b => b = true) (inner_zero ch params.pc ry.tail hg h1)
    fun b hb => (Succeeds.ensure _ hb).bind fun _ _ => ?_
  refine (Succeeds.orPanic (List.getElem?_eq_getElem (by omega))).bind fun y0 _ => ?_
  refine Succeeds.bind (P := fun b => b = true) ?_ fun b hb => (Succeeds.ensure _ hb).bind fun _ _ =>
    Succeeds.pure ⟨by simpa using hrx, by simpa using hry⟩
  have := eq_zero ch params.pc.gen1
  simpa [zeroSat] using this

/-- The weights of the lower half vanish when the first coordinate is one. -/
theorem evaluateMle_one (m : Rows F) (nx ny : Nat) (hf : Fits m nx ny) :
    evaluateMle m (1 :: List.replicate nx 0) (List.replicate (ny + 1) 0) = some 0 := by
  rw [C46_evaluateMle m _ _ ny (by simp)
    ⟨le_trans hf.1 (Nat.pow_le_pow_right (by norm_num) (by simp)), hf.2⟩]
  congr 1
  apply Finset.sum_eq_zero
  intro i hi
  apply Finset.sum_eq_zero
  intro c _
  by_cases hlt : i < 2 ^ nx
  · rw [eqWeight_lo _ _ _ (by simpa using hlt)]; simp
  · have : m.getD i [] = [] := by
      rw [List.getD_eq_getElem?_getD, List.getElem?_eq_none (by have := hf.1; omega)]; rfl
    rw [this]; simp [entry]

/-- All rows and variables of the instance are in the range the verifier assumes. -/
def Inst.Fits (s : Inst F) : Prop :=
  Ml.Fits s.a (Nat.clog 2 s.numConstraints) (Nat.clog 2 s.t) ∧
  Ml.Fits s.b (Nat.clog 2 s.numConstraints) (Nat.clog 2 s.t) ∧
  Ml.Fits s.c (Nat.clog 2 s.numConstraints) (Nat.clog 2 s.t)

/-- One proof of zeros, with a point of the prover's choice, is accepted for every instance, all
public inputs, all parameters and every hash function. -/
theorem C44_forgery (ch : Oracle F G) (params : SatParams G) (hg : params.pc.genN.generators ≠ [])
    (h1 : params.pc.gen1.generators ≠ []) (s : Inst F) (hf : s.Fits) (inputs : List F)
    (hin : inputs.length + 1 ≤ s.t) (r1csHash paramsHash : F) :
    verifyNizk ch params s inputs
      ⟨zeroSat (Nat.clog 2 s.numConstraints) (Nat.clog 2 s.t + 1),
        1 :: List.replicate (Nat.clog 2 s.numConstraints) 0, List.replicate (Nat.clog 2 s.t + 1) 0⟩
      r1csHash paramsHash = .ok () := by
  unfold verifyNizk
  simp only [evaluateMle_one _ _ _ hf.1, evaluateMle_one _ _ _ hf.2.1, evaluateMle_one _ _ _ hf.2.2]
  obtain ⟨a, tr, h, _⟩ := sat_zero ch params s inputs hin hg h1 (nizkStart r1csHash paramsHash)
  rw [h]

/-- The circuit with the constraints `x · x = in`, `1 · 0 = 1`, which nothing satisfies. -/
def falseInst : Inst F :=
  ⟨2, 1, 2, [[(1, .aux 0)], [(1, .input 0)]], [[(1, .aux 0)], []], [[(1, .input 1)], [(1, .input 0)]]⟩

theorem falseInst_unsat : ¬ ∃ z : Index → F, (falseInst : Inst F).Sat z := by
  rintro ⟨z, h0, h⟩
  have := h 1 (Nat.lt_succ_self 1)
  simp [falseInst, rowVal, h0] at this

theorem falseInst_t : (falseInst : Inst F).t = 2 := (by decide : padTo (max 1 2) = 2)

theorem falseInst_fits : (falseInst : Inst F).Fits := by
  have ht : (falseInst : Inst F).t = 2 := falseInst_t
  have hc : Nat.clog 2 (falseInst : Inst F).numConstraints = 1 := (by decide : Nat.clog 2 2 = 1)
  unfold Inst.Fits Ml.Fits
  rw [ht, hc]
  have : Nat.clog 2 2 = 1 := by decide
  rw [this]
  simp [falseInst, col]

/-- C44 fails: an instance that cannot be satisfied has an accepted proof, for every public input,
all parameters and every hash function. -/
theorem C44_violated (ch : Oracle F G) (params : SatParams G) (hg : params.pc.genN.generators ≠ [])
    (h1 : params.pc.gen1.generators ≠ []) :
    ∃ s : Inst F, (¬ ∃ z, s.Sat z) ∧ ∀ x r1csHash paramsHash : F, ∃ proof : NizkProof F G,
      verifyNizk ch params s [x] proof r1csHash paramsHash = .ok () :=
  ⟨falseInst, falseInst_unsat, fun x _ _ => ⟨_, C44_forgery ch params hg h1 falseInst falseInst_fits [x]
    (by rw [falseInst_t]; simp) _ _⟩⟩

/-- Over the field with 17 elements as its own group, with the generators 2, 3, 4, 5. -/
example : ∃ s : Inst F17, (¬ ∃ z, s.Sat z) ∧ ∀ x r1csHash paramsHash : F17, ∃ proof : NizkProof F17 F17,
    verifyNizk (fun tr => (tr.length : F17)) ⟨⟨2, ⟨2, [2, 3], 4⟩, ⟨1, [5], 4⟩⟩, ⟨1, [5], 4⟩, ⟨3, [6, 7, 8], 9⟩,
      ⟨4, [10, 11, 12, 13], 14⟩, 2⟩ s [x] proof r1csHash paramsHash = .ok () :=
  C44_violated _ _ (by simp) (by simp)

end Zkp.Spartan
