/- Properties C29-C31: Groth16. -/
import Verif.Proof.Groth16
import Mathlib.Algebra.Polynomial.Roots
import Mathlib.Algebra.Field.ZMod
import Mathlib.LinearAlgebra.BilinearMap
import Mathlib.Algebra.Algebra.Bilinear
import Verif.Proof.F17

set_option linter.unusedSectionVars false

namespace Zkp

open Polynomial Groth16

variable {F : Type} [Field F] [DecidableEq F]

/-! ### C29: the reduction -/

/-- C29.  For every circuit `cs` (constraints and assignment) whose indices are allocated, and every
evaluation domain with room for the constraints and the public inputs, there are three polynomials of
degree below the domain size such that
* at every point, the key's per-variable values combined with the assignment are their values;
* at the domain element of every constraint row they take the values of the row's combinations, and
  at the added rows `A` is the public input and `B`, `C` are zero;
* the prover's quotient is exact iff the assignment satisfies the circuit, no other quotient exists
  for an unsatisfying assignment, and the quotient has no coefficient beyond those of the key. -/
theorem groth16_reduction (D : Domain F) (h : D.Valid) (cs : CS F) (hr : inRange cs = true)
    (hn : cs.constraints.length + cs.inputs.length ≤ D.size) :
    ∃ A B C : F[X], A.degree < D.size ∧ B.degree < D.size ∧ C.degree < D.size ∧
      (∀ t, dot (instanceMap D cs t).a (cs.inputs ++ cs.aux) = A.eval t ∧
        dot (instanceMap D cs t).b (cs.inputs ++ cs.aux) = B.eval t ∧
        dot (instanceMap D cs t).c (cs.inputs ++ cs.aux) = C.eval t ∧
        (instanceMap D cs t).zt = (X ^ D.size - 1 : F[X]).eval t) ∧
      (∀ i k, cs.constraints[i]? = some k → A.eval (D.ω ^ i) = k.a.eval cs.witness ∧
        B.eval (D.ω ^ i) = k.b.eval cs.witness ∧ C.eval (D.ω ^ i) = k.c.eval cs.witness) ∧
      (∀ i v, cs.inputs[i]? = some v → A.eval (D.ω ^ (cs.constraints.length + i)) = v ∧
        B.eval (D.ω ^ (cs.constraints.length + i)) = 0 ∧
        C.eval (D.ω ^ (cs.constraints.length + i)) = 0) ∧
      (A * B - C = polyOf (witnessMap D cs) * (X ^ D.size - 1) ↔ cs.Sat cs.witness) ∧
      ((∃ H, A * B - C = H * (X ^ D.size - 1)) ↔ cs.Sat cs.witness) ∧
      (cs.Sat cs.witness → (polyOf (witnessMap D cs)).coeff (D.size - 1) = 0) ∧
      (witnessMap D cs).length = D.size := by
  refine ⟨polyOf (D.ifft (evalsA D cs)), polyOf (D.ifft (evalsB D cs)), polyOf (D.ifft (evalsC D cs)),
    by simpa using polyOf_degree (D.ifft (evalsA D cs)),
    by simpa using polyOf_degree (D.ifft (evalsB D cs)),
    by simpa using polyOf_degree (D.ifft (evalsC D cs)), ?_, ?_, ?_, ?_, ?_, ?_, witnessMap_length⟩
  · intro t
    exact ⟨(instanceMap_a hr hn t).2, (instanceMap_b hr (by omega) t).2,
      (instanceMap_c hr (by omega) t).2, (Domain.eval_vanishing t).symm⟩
  · intro i k hk
    obtain ⟨hi, rfl⟩ := List.getElem?_eq_some_iff.mp hk
    have hi' : i < D.size := by omega
    rw [h.eval_ifft_element _ hi', h.eval_ifft_element _ hi', h.eval_ifft_element _ hi',
      evalsA_getD hr hi', evalsB_getD hr hi', evalsC_getD hr hi']
    simp only [if_pos hi]
    rw [List.getD_eq_getElem _ _ (by simpa using hi), List.getD_eq_getElem _ _ (by simpa using hi),
      List.getD_eq_getElem _ _ (by simpa using hi)]
    simp
  · intro i v hv
    obtain ⟨hi, rfl⟩ := List.getElem?_eq_some_iff.mp hv
    have hi' : cs.constraints.length + i < D.size := by omega
    rw [h.eval_ifft_element _ hi', h.eval_ifft_element _ hi', h.eval_ifft_element _ hi',
      evalsA_getD hr hi', evalsB_getD hr hi', evalsC_getD hr hi',
      if_neg (show ¬ cs.constraints.length + i < cs.constraints.length by omega),
      if_neg (show ¬ cs.constraints.length + i < cs.constraints.length by omega),
      if_neg (show ¬ cs.constraints.length + i < cs.constraints.length by omega),
      if_pos (by omega), Nat.add_sub_cancel_left, List.getD_eq_getElem _ _ hi]
    exact ⟨rfl, rfl, rfl⟩
  · exact ⟨fun he => quotient_only h hr (by omega) he, fun hs => (quotient h hr (by omega) hs).1⟩
  · exact ⟨fun ⟨H, he⟩ => quotient_only h hr (by omega) he,
      fun hs => ⟨_, (quotient h hr (by omega) hs).1⟩⟩
  · exact fun hs => (quotient h hr (by omega) hs).2

/-! A concrete instance: the circuit `x * x = y` over `ZMod 17` with `y = 9` public, `x = 3`. -/

namespace Groth16Ex

/-- The subgroup of order 4 of `ZMod 17`, offset 3. -/
def D4 : Domain (ZMod 17) := ⟨4, 4, 3⟩

theorem d4_valid : D4.Valid := by
  refine ⟨by decide, ?_, by decide, by decide⟩
  exact IsPrimitiveRoot.mk_of_lt _ (by decide) (by decide) (by
    intro l h0 hl
    have hl : l < 4 := hl
    match l, h0, hl with
    | 1, _, _ => decide
    | 2, _, _ => decide
    | 3, _, _ => decide)

/-- The proving run. -/
def csP : CS (ZMod 17) := ⟨true, [1, 9], [3], [⟨[(.aux 0, 1)], [(.aux 0, 1)], [(.input 1, 1)]⟩]⟩

/-- The setup run. -/
def csG : CS (ZMod 17) := ⟨false, [1, 0], [0], [⟨[(.aux 0, 1)], [(.aux 0, 1)], [(.input 1, 1)]⟩]⟩

/-- A run with the wrong witness. -/
def csBad : CS (ZMod 17) := ⟨true, [1, 9], [4], [⟨[(.aux 0, 1)], [(.aux 0, 1)], [(.input 1, 1)]⟩]⟩

theorem csP_sat : csP.Sat csP.witness := by
  intro k hk
  have : k = ⟨[(.aux 0, 1)], [(.aux 0, 1)], [(.input 1, 1)]⟩ := by simpa [csP] using hk
  subst this
  simp [R1C.Holds, LC.eval, CS.witness, csP]
  decide

theorem csBad_unsat : ¬ csBad.Sat csBad.witness := by
  intro h
  have := h ⟨[(.aux 0, 1)], [(.aux 0, 1)], [(.input 1, 1)]⟩ (by simp [csBad])
  simp [R1C.Holds, LC.eval, CS.witness, csBad] at this
  revert this; decide

/-- `EvaluationDomain::new` for the example. -/
def mk (n : Nat) : Option (Domain (ZMod 17)) := if n ≤ 4 then some D4 else none

/-- A bilinear map that is not degenerate. -/
noncomputable def e : ZMod 17 →ₗ[ZMod 17] ZMod 17 →ₗ[ZMod 17] ZMod 17 := LinearMap.mul (ZMod 17) (ZMod 17)

end Groth16Ex

open Groth16Ex in
example : D4.Valid ∧ inRange csP = true ∧ csP.constraints.length + csP.inputs.length ≤ D4.size ∧
    csP.Sat csP.witness ∧ ¬ csBad.Sat csBad.witness ∧ inRange csBad = true :=
  ⟨d4_valid, by decide, by decide, csP_sat, csBad_unsat, by decide⟩

/-! ### C30: completeness -/

section
variable {G1 G2 GT : Type} [AddCommGroup G1] [AddCommGroup G2] [AddCommGroup GT]
  [Module F G1] [Module F G2] [Module F GT] [DecidableEq GT]

/-- C30.  For every circuit (setup run `csG` and proving run `csP` with the same constraints and
variable counts), every satisfying assignment, all trapdoors with `γ, δ ≠ 0`, every `t`, all
generators, all `r`, `s`, every pairing: key generation and proving succeed and the proof is accepted
for the circuit's public inputs. -/
theorem groth16_complete (e : G1 →ₗ[F] G2 →ₗ[F] GT) (mkDomain : Nat → Option (Domain F))
    (csG csP : CS F) (hc : csG.constraints = csP.constraints)
    (hi : csG.inputs.length = csP.inputs.length) (ha : csG.aux.length = csP.aux.length)
    (xs : List F) (hone : csP.inputs = 1 :: xs) (hr : inRange csP = true) (D : Domain F)
    (hD : mkDomain (csP.constraints.length + csP.inputs.length) = some D) (h : D.Valid)
    (hn : csP.constraints.length + csP.inputs.length ≤ D.size) (hs : csP.Sat csP.witness)
    (α β γ δ t : F) (hγ : γ ≠ 0) (hδ : δ ≠ 0) (g1 : G1) (g2 : G2) (r s : F) :
    ∃ pk pf, generateParameters mkDomain csG α β γ δ t g1 g2 = .ok pk ∧
      createProof mkDomain pk csP r s = .ok pf ∧
      verifyProof e (prepareVerifyingKey e pk.vk) pf xs = .ok true := by
  obtain ⟨pk, pf, h1, h2, h3⟩ :=
    run_all e mkDomain csG csP hc hi ha xs hone hr hD h hn α β γ δ t hγ hδ g1 g2 r s
  refine ⟨pk, pf, h1, h2, ?_⟩
  rw [h3]
  congr 1
  rw [decide_eq_true_iff]
  obtain ⟨q1, q2⟩ := quotient h hr (by omega) hs
  have e1 := congrArg (eval t) q1
  rw [eval_sub, eval_mul, eval_mul, Domain.eval_vanishing, polyOf_eval (witnessMap D csP),
    witnessMap_length] at e1
  have hp : D.size = D.size - 1 + 1 := by have := h.pos; omega
  rw [polyOf_coeff] at q2
  have e2 : ∑ j ∈ Finset.range D.size, (witnessMap D csP).getD j 0 * t ^ j =
      ∑ j ∈ Finset.range (D.size - 1), (witnessMap D csP).getD j 0 * t ^ j := by
    conv_lhs => rw [hp, Finset.sum_range_succ, q2, zero_mul, add_zero]
  rw [e2] at e1
  rw [e1, mul_comm, sub_self, zero_smul]

/-- C30, other direction: for an assignment that does not satisfy the circuit, what `create_proof`
outputs is accepted only if the secret point `t` is a root of a fixed nonzero polynomial of degree at
most twice the domain size (for a pairing that does not kill the generators). -/
theorem groth16_unsatisfied (e : G1 →ₗ[F] G2 →ₗ[F] GT) (mkDomain : Nat → Option (Domain F))
    (csG csP : CS F) (hc : csG.constraints = csP.constraints)
    (hi : csG.inputs.length = csP.inputs.length) (ha : csG.aux.length = csP.aux.length)
    (xs : List F) (hone : csP.inputs = 1 :: xs) (hr : inRange csP = true) (D : Domain F)
    (hD : mkDomain (csP.constraints.length + csP.inputs.length) = some D) (h : D.Valid)
    (hn : csP.constraints.length + csP.inputs.length ≤ D.size) (hs : ¬ csP.Sat csP.witness) :
    ∃ P : F[X], P ≠ 0 ∧ P.natDegree ≤ 2 * D.size ∧
      ∀ (α β γ δ t : F) (_ : γ ≠ 0) (_ : δ ≠ 0) (g1 : G1) (g2 : G2) (_ : e g1 g2 ≠ 0) (r s : F)
        (pk : Parameters G1 G2) (pf : Groth16.Proof G1 G2),
        generateParameters mkDomain csG α β γ δ t g1 g2 = .ok pk →
        createProof mkDomain pk csP r s = .ok pf →
        verifyProof e (prepareVerifyingKey e pk.vk) pf xs = .ok true → P.eval t = 0 := by
  set A := polyOf (D.ifft (evalsA D csP))
  set B := polyOf (D.ifft (evalsB D csP))
  set Cp := polyOf (D.ifft (evalsC D csP))
  set H := polyOf ((witnessMap D csP).take (D.size - 1)) with hH
  have hp := h.pos
  have hlt : ((witnessMap D csP).take (D.size - 1)).length = D.size - 1 := by
    simp [witnessMap_length]
  have nd : ∀ l : List F, l.length ≤ D.size → (polyOf l).natDegree ≤ D.size := by
    intro l hl
    refine natDegree_le_iff_degree_le.mpr ((polyOf_degree l).le.trans ?_)
    exact_mod_cast hl
  refine ⟨A * B - Cp - H * (X ^ D.size - 1), ?_, ?_, ?_⟩
  · intro h0
    exact hs (quotient_only h hr (by omega) (sub_eq_zero.mp h0))
  · refine (natDegree_sub_le _ _).trans (max_le ((natDegree_sub_le _ _).trans (max_le ?_ ?_)) ?_)
    · exact natDegree_mul_le.trans (by
        have h1 := nd (D.ifft (evalsA D csP)) (by simp)
        have h2 := nd (D.ifft (evalsB D csP)) (by simp)
        change A.natDegree + B.natDegree ≤ _
        change A.natDegree ≤ _ at h1
        change B.natDegree ≤ _ at h2
        omega)
    · have h1 := nd (D.ifft (evalsC D csP)) (by simp)
      change Cp.natDegree ≤ _ at h1
      omega
    · refine natDegree_mul_le.trans ?_
      have h1 := nd _ (hlt.le.trans (by omega))
      rw [← hH] at h1
      have hz : (X ^ D.size - 1 : F[X]).natDegree = D.size := by
        rw [← C_1, natDegree_X_pow_sub_C]
      omega
  · intro α β γ δ t hγ hδ g1 g2 he r s pk pf h1 h2 h3
    obtain ⟨pk', pf', h1', h2', h3'⟩ :=
      run_all e mkDomain csG csP hc hi ha xs hone hr hD h hn α β γ δ t hγ hδ g1 g2 r s
    rw [h1] at h1'
    cases h1'
    rw [h2] at h2'
    cases h2'
    rw [h3] at h3'
    have h4 := of_decide_eq_true (Except.ok.inj h3').symm
    have h5 := (smul_eq_zero.mp h4).resolve_right he
    rw [eval_sub, eval_sub, eval_mul, eval_mul, Domain.eval_vanishing, hH,
      polyOf_eval ((witnessMap D csP).take _), hlt]
    have : ∑ j ∈ Finset.range (D.size - 1), ((witnessMap D csP).take (D.size - 1)).getD j 0 * t ^ j =
        ∑ j ∈ Finset.range (D.size - 1), (witnessMap D csP).getD j 0 * t ^ j := by
      apply Finset.sum_congr rfl
      intro j hj
      have hj := Finset.mem_range.mp hj
      rw [List.getD_eq_getElem _ _ (by omega), List.getD_eq_getElem _ _ (by rw [witnessMap_length]; omega)]
      simp
    rw [this, mul_comm (∑ _ ∈ _, _)]
    exact h5

open Groth16Ex in
/-- The hypotheses hold for the example circuit, and key generation then gives an accepted proof. -/
example : ∃ pk pf, generateParameters mk csG 2 3 5 7 6 (1 : ZMod 17) (1 : ZMod 17) = .ok pk ∧
    createProof mk pk csP 11 13 = .ok pf ∧
    verifyProof Groth16Ex.e (prepareVerifyingKey Groth16Ex.e pk.vk) pf [9] = .ok true :=
  groth16_complete Groth16Ex.e mk csG csP rfl rfl rfl [9] rfl (by decide) D4 rfl d4_valid (by decide)
    csP_sat 2 3 5 7 6 (by decide) (by decide) 1 1 11 13

open Groth16Ex in
/-- The hypotheses of the converse hold for the wrong witness. -/
example : csG.constraints = csBad.constraints ∧ csG.inputs.length = csBad.inputs.length ∧
    csG.aux.length = csBad.aux.length ∧ csBad.inputs = [1, 9] ∧ inRange csBad = true ∧
    mk (csBad.constraints.length + csBad.inputs.length) = some D4 ∧ ¬ csBad.Sat csBad.witness ∧
    Groth16Ex.e 1 1 ≠ 0 :=
  ⟨rfl, rfl, rfl, rfl, by decide, rfl, csBad_unsat, by simp [Groth16Ex.e]⟩

/-- C30, when there is a key: key generation succeeds exactly when the domain exists, every variable in a constraint was
allocated, and `γ`, `δ` are not zero. -/
theorem groth16_keygen_ok_iff (mkDomain : Nat → Option (Domain F)) (cs : CS F) (α β γ δ t : F) (g1 : G1) (g2 : G2) :
    (∃ pk, generateParameters mkDomain cs α β γ δ t g1 g2 = .ok pk) ↔
      (∃ D, mkDomain (cs.constraints.length + (cs.inputs.length - 1) + 1) = some D) ∧
      (∀ k ∈ cs.constraints, ∀ u ∈ k.a ++ k.b ++ k.c,
        (∃ i, u.1 = .input i ∧ i < cs.inputs.length) ∨ ∃ i, u.1 = .aux i ∧ i < cs.aux.length) ∧ γ ≠ 0 ∧ δ ≠ 0 := by
  have hr : inRange cs = true ↔ ∀ k ∈ cs.constraints, ∀ u ∈ k.a ++ k.b ++ k.c,
      (∃ i, u.1 = .input i ∧ i < cs.inputs.length) ∨ ∃ i, u.1 = .aux i ∧ i < cs.aux.length := by
    unfold inRange
    rw [List.all_eq_true]
    refine forall₂_congr fun k _ => ?_
    rw [List.all_eq_true]
    refine forall₂_congr fun u _ => ?_
    cases u.1 <;> simp
  rw [← hr]
  unfold generateParameters
  cases mkDomain (cs.constraints.length + (cs.inputs.length - 1) + 1) with
  | none => simp
  | some D =>
    by_cases h1 : inRange cs = true <;> by_cases h2 : γ = 0 <;> by_cases h3 : δ = 0 <;> simp [h1, h2, h3]

open Groth16Ex in
example : (∃ pk, generateParameters mk csG 2 3 5 7 6 (1 : ZMod 17) (1 : ZMod 17) = .ok pk) ∧
    ¬ ∃ pk, generateParameters mk csG 2 3 0 7 6 (1 : ZMod 17) (1 : ZMod 17) = .ok pk :=
  ⟨(groth16_keygen_ok_iff ..).2 ⟨⟨D4, rfl⟩, by
    intro k hk u hu
    obtain rfl : k = ⟨[(.aux 0, 1)], [(.aux 0, 1)], [(.input 1, 1)]⟩ := by simpa [csG] using hk
    simp at hu
    rcases hu with rfl | rfl
    · exact Or.inr ⟨0, rfl, by decide⟩
    · exact Or.inl ⟨1, rfl, by decide⟩, by decide, by decide⟩,
    fun h => ((groth16_keygen_ok_iff ..).1 h).2.2.1 rfl⟩

/-! ### C31: the verifier -/

/-- C31, length check: whatever the key and proof, a public-input vector of the wrong length is an
error. -/
theorem groth16_wrong_length (e : G1 →ₗ[F] G2 →ₗ[F] GT) (vk : VerifyKey G1 G2)
    (pf : Groth16.Proof G1 G2) (xs : List F) (h : xs.length + 1 ≠ vk.gamma_abc_g1.length) :
    verifyProof e (prepareVerifyingKey e vk) pf xs = .error .malformedVerifyingKey := by
  unfold verifyProof prepareVerifyingKey
  simp only
  split
  · rfl
  · rename_i g0 rest hg
    rw [hg] at h
    rw [if_pos h]

/-- C31, equation: for a vector of the right length the result is `true` exactly when
`e(A,B) = e(α,β) + e(γ₀ + Σ xᵢ·γᵢ₊₁, γ) + e(C,δ)`. -/
theorem groth16_verify_iff (e : G1 →ₗ[F] G2 →ₗ[F] GT) (vk : VerifyKey G1 G2)
    (pf : Groth16.Proof G1 G2) (xs : List F) (h : xs.length + 1 = vk.gamma_abc_g1.length) :
    ∃ b, verifyProof e (prepareVerifyingKey e vk) pf xs = .ok b ∧ (b = true ↔
      e pf.a pf.b = e vk.alpha_g1 vk.beta_g2 +
        e (∑ i ∈ Finset.range vk.gamma_abc_g1.length,
          ((1 :: xs).getD i 0) • vk.gamma_abc_g1.getD i 0) vk.gamma_g2 + e pf.c vk.delta_g2) := by
  unfold verifyProof prepareVerifyingKey
  simp only
  split
  · rename_i hg; rw [hg] at h; simp at h
  · rename_i g0 rest hg
    rw [hg] at h
    rw [if_neg (by simpa using h)]
    refine ⟨_, rfl, ?_⟩
    have hsum : ∑ i ∈ Finset.range vk.gamma_abc_g1.length,
        ((1 :: xs).getD i 0) • vk.gamma_abc_g1.getD i 0 = g0 + msm rest xs := by
      rw [hg, List.length_cons, Finset.sum_range_succ']
      simp only [List.getD_cons_succ, List.getD_cons_zero, one_smul]
      rw [add_comm]
      congr 1
      have hl : rest.length = xs.length := by simpa using h.symm
      unfold msm
      clear h hg
      induction rest generalizing xs with
      | nil => simp
      | cons g rest ih =>
        cases xs with
        | nil => simp at hl
        | cons x xs =>
          rw [List.length_cons, Finset.sum_range_succ']
          simp only [List.getD_cons_succ, List.getD_cons_zero, List.zipWith_cons_cons, List.sum_cons]
          rw [ih xs (by simpa using hl), add_comm]
    rw [hsum, foldl_gic, beq_iff_eq]
    simp only [map_neg]
    constructor
    · intro he; rw [← he]; abel
    · intro he; rw [he]; abel

example : ([9] : List (ZMod 17)).length + 1 ≠ ([1, 2, 3] : List (ZMod 17)).length := by decide

example : ([9, 4] : List (ZMod 17)).length + 1 = ([1, 2, 3] : List (ZMod 17)).length := by decide

end

end Zkp
