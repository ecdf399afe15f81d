/- All steps of Spartan's prover, for challenges fixed beforehand. -/
import Verif.Proof.SpartanHiding

namespace Zkp.Spartan

open Zkp.Ml Zkp.Sc Zkp.Cp

set_option linter.unusedSectionVars false
set_option linter.unusedSimpArgs false

variable {F : Type} [Field F] {G : Type} [AddCommGroup G] [Module F G] [DecidableEq F] [DecidableEq G]

/-- A row of challenges. -/
def chals (ch : Oracle F G) : Nat → Nat → List F
  | _, 0 => []
  | n, k + 1 => chalAt ch (n + 1) :: chals ch (n + 1) k

theorem chals_length (ch : Oracle F G) (n k : Nat) : (chals ch n k).length = k := by
  induction k generalizing n with
  | zero => rfl
  | succ k ih => simp [chals, ih]

theorem challenges_yields {ch : Oracle F G} (ho : Oblivious ch) (l : String) (n k : Nat) :
    Yields (challenges ch l k) n (chals ch n k) (n + k) := by
  induction k generalizing n with
  | zero => exact Yields.pure
  | succ k ih =>
    have := ih (n + 1)
    rw [show n + 1 + k = n + (k + 1) by ring] at this
    exact (Yields.challenge ho).bind (this.bind Yields.pure)

theorem padValues_yields (t : Nat) (values : List F) (h : values.length ≤ t) (n : Nat) :
    Yields (padValues (G := G) t values) n (values ++ List.replicate (t - values.length) 0) n :=
  (Yields.ensure (by simpa using h)).bind Yields.pure

/-- The value of a matrix at the first point. -/
def valAt (rows : Rows F) (w inputs : List F) (m nx : Nat) (rx : List F) : F :=
  mle (rowTab rows (assign (fun i => (zTab w inputs m).getD i 0) inputs) nx) rx

/-- The length of the transcript after the first sum-check. -/
def posOne (n nx : Nat) : Nat := n + 2 + nx + 11 * nx

/-- The length of the transcript after the second sum-check. -/
def posTwo (n nx m : Nat) : Nat := posOne n nx + 21 + 11 * (m + 1)

/-- The point of the first sum-check. -/
def pointX (ch : Oracle F G) (n nx : Nat) : List F := roundChals ch (n + 2 + nx) nx

/-- The point of the second sum-check. -/
def pointY (ch : Oracle F G) (n nx m : Nat) : List F := roundChals ch (posOne n nx + 21) (m + 1)

/-- The table of the second sum-check. -/
def tabTwo (ch : Oracle F G) (s : Inst F) (n nx m : Nat) : List F :=
  combTab s (pointX ch n nx) m (chalAt ch (posOne n nx + 19)) (chalAt ch (posOne n nx + 20)) (chalAt ch (posOne n nx + 21))

/-- What the steps give. -/
structure Steps (ch : Oracle F G) (params : SatParams G) (s : Inst F) (inputs : List F) (m nx n : Nat) (w : List F)
    (rand : SatRand F) (proof : SatProof F G) (b1 b2 : F) : Prop where
  com : proof.commitWitness = rowComms params.pc.genN.generators params.pc.genN.h m w rand.witness
  one : Yields (phaseOne ch params 0 (rowTab s.a (assign (fun i => (zTab w inputs m).getD i 0) inputs) nx)
      (rowTab s.b (assign (fun i => (zTab w inputs m).getD i 0) inputs) nx)
      (rowTab s.c (assign (fun i => (zTab w inputs m).getD i 0) inputs) nx) (evalEq (chals ch (n + 2) nx)) rand.one)
    (n + 2 + nx) (proof.proofOne, pointX ch n nx, (valAt s.a w inputs m nx (pointX ch n nx),
      valAt s.b w inputs m nx (pointX ch n nx), valAt s.c w inputs m nx (pointX ch n nx),
      mle (evalEq (chals ch (n + 2) nx)) (pointX ch n nx)), b1) (posOne n nx)
  know : Yields (knowledgeProve ch params.gen1 (valAt s.c w inputs m nx (pointX ch n nx)) rand.c rand.t1 rand.t2) (posOne n nx)
    (proof.know, proof.vc) (posOne n nx + 3)
  vc : proof.vc = commitVec params.gen1.generators [valAt s.c w inputs m nx (pointX ch n nx)] params.gen1.h rand.c
  prod : Yields (productProve ch params.gen1 (valAt s.a w inputs m nx (pointX ch n nx)) rand.a
      (valAt s.b w inputs m nx (pointX ch n nx)) rand.b
      (valAt s.a w inputs m nx (pointX ch n nx) * valAt s.b w inputs m nx (pointX ch n nx)) rand.prod
      rand.b1 rand.b2 rand.b3 rand.b4 rand.b5) (posOne n nx + 3) (proof.product, proof.va, proof.vb, proof.prod) (posOne n nx + 10)
  va : proof.va = commitVec params.gen1.generators [valAt s.a w inputs m nx (pointX ch n nx)] params.gen1.h rand.a
  vb : proof.vb = commitVec params.gen1.generators [valAt s.b w inputs m nx (pointX ch n nx)] params.gen1.h rand.b
  vab : proof.prod = commitVec params.gen1.generators
    [valAt s.a w inputs m nx (pointX ch n nx) * valAt s.b w inputs m nx (pointX ch n nx)] params.gen1.h rand.prod
  eq1 : Yields (eqProve ch params.gen1 (mle (evalEq (chals ch (n + 2) nx)) (pointX ch n nx) *
      (valAt s.a w inputs m nx (pointX ch n nx) * valAt s.b w inputs m nx (pointX ch n nx) - valAt s.c w inputs m nx (pointX ch n nx)))
      (mle (evalEq (chals ch (n + 2) nx)) (pointX ch n nx) * (rand.prod - rand.c))
      (mle (evalEq (chals ch (n + 2) nx)) (pointX ch n nx) *
      (valAt s.a w inputs m nx (pointX ch n nx) * valAt s.b w inputs m nx (pointX ch n nx) - valAt s.c w inputs m nx (pointX ch n nx)))
      b1 rand.eq1) (posOne n nx + 14) proof.eq1 (posOne n nx + 18)
  two : Yields (phaseTwo ch params (valAt s.a w inputs m nx (pointX ch n nx) * chalAt ch (posOne n nx + 19) +
        valAt s.b w inputs m nx (pointX ch n nx) * chalAt ch (posOne n nx + 20) +
        valAt s.c w inputs m nx (pointX ch n nx) * chalAt ch (posOne n nx + 21))
      (rand.a * chalAt ch (posOne n nx + 19) + rand.b * chalAt ch (posOne n nx + 20) + rand.c * chalAt ch (posOne n nx + 21))
      (tabTwo ch s n nx m) (zTab w inputs m) rand.two) (posOne n nx + 21)
    (proof.proofTwo, pointY ch n nx m, (mle (tabTwo ch s n nx m) (pointY ch n nx m),
      mle (zTab w inputs m) (pointY ch n nx m)), b2) (posTwo n nx m)
  wRy : proof.wRy = mle w (pointY ch n nx m).tail
  dot : Yields (innerProductProve ch params.pc w rand.witness (pointY ch n nx m).tail rand.eval (mle w (pointY ch n nx m).tail)
      rand.d rand.rDelta rand.rBeta rand.bullet) (posTwo n nx m) (proof.dot, proof.commitRy) (posTwo n nx m + 3 * (m - m / 2) + 6)
  cRy : proof.commitRy = commitVec params.pc.gen1.generators [mle w (pointY ch n nx m).tail] params.pc.gen1.h rand.eval
  eq2 : Yields (eqProve ch params.pc.gen1 (mle (tabTwo ch s n nx m) (pointY ch n nx m) * mle (zTab w inputs m) (pointY ch n nx m))
      ((1 - (pointY ch n nx m).headD 0) * rand.eval * mle (tabTwo ch s n nx m) (pointY ch n nx m))
      (mle (tabTwo ch s n nx m) (pointY ch n nx m) * mle (zTab w inputs m) (pointY ch n nx m)) b2 rand.eq2)
    (posTwo n nx m + 3 * (m - m / 2) + 6) proof.eq2 (posTwo n nx m + 3 * (m - m / 2) + 10)

theorem steps_yields {ch : Oracle F G} (ho : Oblivious ch) (params : SatParams G) (s : Inst F) (cs : CS F) (inputs : List F)
    (hin : cs.inputs = 1 :: inputs) (hf : s.Fits) (hla : s.a.length = s.numConstraints) (hlb : s.b.length = s.numConstraints)
    (hlc : s.c.length = s.numConstraints) (hpad : s.numConstraints = padTo cs.constraints.length)
    (hal : cs.aux.length ≤ s.t) (hil : cs.inputs.length ≤ s.t) (m nx n : Nat) (hm : m = Nat.clog 2 s.t)
    (hnx : nx = Nat.clog 2 s.numConstraints) (w : List F) (hw : w = cs.aux ++ List.replicate (s.t - cs.aux.length) 0)
    (rand : SatRand F) (hr : rand.Shape nx m) (proof : SatProof F G) (b1 b2 : F)
    (h : Steps ch params s inputs m nx n w rand proof b1 b2) :
    Yields (satProve ch params s cs rand) n (proof, pointX ch n nx, pointY ch n nx m)
      (posTwo n nx m + 3 * (m - m / 2) + 10) := by
  have ht : 2 ^ m = s.t := by rw [hm, clog_t]
  have hwl : w.length = 2 ^ m := by rw [hw, ht]; simp; omega
  have hil' : inputs.length + 1 ≤ 2 ^ m := by rw [ht]; rw [hin] at hil; simpa using hil
  have hpow : s.numConstraints = 2 ^ nx := by
    rw [hnx, hpad]
    unfold padTo
    rw [Nat.clog_pow 2 _ (by decide)]
  have hzt : w ++ (cs.inputs ++ List.replicate (s.t - cs.inputs.length) 0) = zTab w inputs m := by
    rw [hin, ← ht]; simp [zTab, Nat.sub_sub]
  have hxl : (pointX ch n nx).length = nx := roundChals_length _ _ _
  have hyl : (pointY ch n nx m).length = m + 1 := roundChals_length _ _ _
  unfold Inst.Fits at hf
  rw [← hm, ← hnx] at hf
  obtain ⟨y0, ys, hys⟩ : ∃ y0 ys, pointY ch n nx m = y0 :: ys := by
    cases hq : pointY ch n nx m with
    | nil => rw [hq] at hyl; simp at hyl
    | cons y0 ys => exact ⟨_, _, rfl⟩
  have hysl : ys.length = m := by rw [hys] at hyl; simpa using hyl
  have hpk := pack_yields params.pc.genN.generators params.pc.genN.h m w rand.witness hwl hr.witness (n + 1)
  have hone := h.one
  have hdot := h.dot
  have heq2 := h.eq2
  have htwo := h.two
  rw [hys] at hdot heq2 htwo
  obtain ⟨cw, p1, p2, wr, dt, va, vb, vc, pr, kn, pd, e1, e2, cr⟩ := proof
  have hcom := h.com
  have hwr := h.wRy
  rw [hys] at hwr
  simp only at hcom hwr hone hdot heq2 htwo
  subst hcom hwr
  unfold satProve
  simp only [← hnx]
  refine (Yields.ensure (by simpa using hpad)).bind ?_
  refine (padValues_yields _ _ hal _).bind ?_
  refine (padValues_yields _ _ hil _).bind ?_
  rw [← hw, hzt]
  refine Yields.say.bind ?_
  refine hpk.bind ?_
  refine Yields.say.bind ?_
  refine (challenges_yields ho _ _ _).bind ?_
  refine (Yields.orPanic (matrixVec _ _ _ _ _ hwl hil' hf.1 (by rw [hla, hpow]))).bind ?_
  refine (Yields.orPanic (matrixVec _ _ _ _ _ hwl hil' hf.2.1 (by rw [hlb, hpow]))).bind ?_
  refine (Yields.orPanic (matrixVec _ _ _ _ _ hwl hil' hf.2.2 (by rw [hlc, hpow]))).bind ?_
  refine hone.bind ?_
  refine h.know.bind ?_
  refine h.prod.bind ?_
  refine Yields.say.bind (Yields.say.bind (Yields.say.bind (Yields.say.bind ?_)))
  refine h.eq1.bind ?_
  refine (Yields.challenge ho).bind ((Yields.challenge ho).bind ((Yields.challenge ho).bind ?_))
  rw [zTab_length w inputs m hwl hil']
  rw [← hxl] at hf
  refine (Yields.orPanic (combineColumns_eq s _ m _ _ _ hf.1 hf.2.1 hf.2.2)).bind ?_
  refine htwo.bind ?_
  refine (Yields.orPanic (a := y0) rfl).bind ?_
  refine (Yields.orPanic (a := mle w ys) (by rw [List.tail_cons, C46_evalValue, if_pos (by rw [hwl, hysl])])).bind ?_
  refine hdot.bind ?_
  refine heq2.bind ?_
  rw [hys]
  exact Yields.pure

end Zkp.Spartan
