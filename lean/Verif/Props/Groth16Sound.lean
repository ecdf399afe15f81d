/- Property C95: Groth16 is sound against provers that combine key elements linearly. -/
import Verif.Proof.Groth16Agm
import Verif.Props.Groth16

set_option linter.unusedSectionVars false

namespace Zkp

open Polynomial Groth16

variable {F : Type} [Field F] [DecidableEq F]
variable {G1 G2 GT : Type} [AddCommGroup G1] [AddCommGroup G2] [AddCommGroup GT]
  [Module F G1] [Module F G2] [Module F GT] [DecidableEq GT]

/-- The run of a circuit `cs` with public inputs `xs` and the witness values `ws` (missing ones are
zero). -/
def runWith (cs : CS F) (xs ws : List F) : CS F :=
  { cs with
    inputs := 1 :: xs
    aux := (List.range cs.aux.length).map fun i => ws.getD i 0 }

/-- C95.  Let a prover fix the coefficients with which the elements of the key (and the generators)
are combined to the three proof elements.  If the coefficients of the `l_query` in the third element
are not a witness for the public inputs `xs`, then among all `|F|⁵` trapdoors `(α, β, γ, δ, t)` at
most `(3n + 1)·|F|⁴` yield a key for which the proof is accepted, `n` being the domain size.  This
holds for every circuit, every pairing that does not kill the generators, and all inputs. -/
theorem C95_groth16_algebraic [Fintype F] (e : G1 →ₗ[F] G2 →ₗ[F] GT) (g1 : G1) (g2 : G2)
    (he : e g1 g2 ≠ 0) (mkDomain : Nat → Option (Domain F)) (cs : CS F) (D : Domain F)
    (hD : mkDomain (cs.constraints.length + (cs.inputs.length - 1) + 1) = some D) (h : D.Valid)
    (hn : cs.constraints.length + cs.inputs.length ≤ D.size)
    (A C : Coeffs1 F) (B : Coeffs2 F) (xs : List F)
    (hs : ¬ (runWith cs xs C.l).Sat (runWith cs xs C.l).witness) :
    {x : Fin 5 → F | ∃ pk : Parameters G1 G2,
      generateParameters mkDomain cs (x 0) (x 1) (x 2) (x 3) (x 4) g1 g2 = .ok pk ∧
      verifyProof e (prepareVerifyingKey e pk.vk) ⟨A.apply pk g1, B.apply pk g2, C.apply pk g1⟩ xs =
        .ok true}.ncard ≤ (3 * D.size + 1) * Fintype.card F ^ 4 := by
  by_cases hne : ∃ (x : Fin 5 → F) (pk : Parameters G1 G2),
      generateParameters mkDomain cs (x 0) (x 1) (x 2) (x 3) (x 4) g1 g2 = .ok pk ∧
      verifyProof e (prepareVerifyingKey e pk.vk) ⟨A.apply pk g1, B.apply pk g2, C.apply pk g1⟩ xs =
        .ok true
  swap
  · have : {x : Fin 5 → F | ∃ pk : Parameters G1 G2,
      generateParameters mkDomain cs (x 0) (x 1) (x 2) (x 3) (x 4) g1 g2 = .ok pk ∧
      verifyProof e (prepareVerifyingKey e pk.vk) ⟨A.apply pk g1, B.apply pk g2, C.apply pk g1⟩ xs =
        .ok true} = ∅ := by
      ext x
      simp only [Set.mem_ofPred_eq, Set.mem_empty_iff_false, iff_false]
      exact fun hx => hne ⟨x, hx⟩
    rw [this, Set.ncard_empty]
    exact Nat.zero_le _
  obtain ⟨x0, pk0, hk0, hv0⟩ := hne
  have hr : inRange cs = true := (keygen_eq hk0 hD).1
  obtain ⟨u, v, w, hu, hv, hw, hl, hq⟩ := variable_polys D h cs hr hn
  set N := cs.inputs.length + cs.aux.length with hN
  have hlen : cs.inputs.length = xs.length + 1 := by
    have hg := (elements hk0 hD (fun i => (hu i).2 _) (fun i => (hv i).2 _) (fun i => (hw i).2 _) hN
      (hl _)).2.2.2
    by_contra hne
    rw [groth16_wrong_length e pk0.vk _ xs (by rw [hg]; exact fun h => hne h.symm)] at hv0
    cases hv0
  refine zeros_le (P := identity A C B u v w N cs.inputs.length D.size xs) ?_
    (identity_degree h.pos (fun i => (hu i).1) (fun i => (hv i).1) (fun i => (hw i).1) A C B N _ xs) _ ?_
  · -- an identity would give a quotient
    intro h0
    have hx := extract _ _ _ _ _ _ _ _ _ _ _ _ _ _ _ _ _ _ _ _ _ _ _ _ _ _ _ h0
    rw [lin_add, lin_add, ← add_assoc, lin_add] at hx
    have hz := hq (fun i => onInputs cs.inputs.length (1 :: xs) i + onAux cs.inputs.length C.l i)
      (hPoly D.size C.h) (by rw [hx]; ring)
    apply hs
    convert hz using 2 <;>
    · unfold runWith withAssignment
      congr 1
      · rw [hlen]
        apply List.ext_getElem (by simp)
        intro i h1 h2
        have h3 : i < xs.length + 1 := by simpa using h1
        simp only [List.getElem_map, List.getElem_range, onInputs, onAux, if_pos h3, add_zero]
        rw [List.getD_eq_getElem _ _ h1]
      · apply List.map_congr_left
        intro i _
        simp [onInputs, onAux]
  · rintro x ⟨pk, hk, hver⟩
    obtain ⟨-, hγ, hδ, hpk⟩ := keygen_eq hk hD
    obtain ⟨h1, h2, h3, h4⟩ := elements hk hD (fun i => (hu i).2 _) (fun i => (hv i).2 _)
      (fun i => (hw i).2 _) hN (hl _)
    obtain ⟨b, hb, hiff⟩ := groth16_verify_iff e pk.vk ⟨A.apply pk g1, B.apply pk g2, C.apply pk g1⟩ xs
      (by rw [h4, hlen])
    rw [hb] at hver
    have heq := hiff.mp (Except.ok.inj hver)
    have hsum : ∑ i ∈ Finset.range pk.vk.gamma_abc_g1.length,
        ((1 :: xs).getD i 0) • pk.vk.gamma_abc_g1.getD i 0 = msm pk.vk.gamma_abc_g1 (1 :: xs) := by
      generalize (1 :: xs) = ys
      unfold msm
      clear * -
      generalize pk.vk.gamma_abc_g1 = l
      induction l generalizing ys with
      | nil => simp
      | cons g l ih =>
        cases ys with
        | nil => simp
        | cons y ys =>
          rw [List.length_cons, Finset.sum_range_succ']
          simp only [List.getD_cons_succ, List.getD_cons_zero, List.zipWith_cons_cons, List.sum_cons]
          rw [ih ys, add_comm]
    rw [hsum, h1, h1, h2, h3] at heq
    have hvk : pk.vk.alpha_g1 = x 0 • g1 ∧ pk.vk.beta_g2 = x 1 • g2 ∧ pk.vk.gamma_g2 = x 2 • g2 ∧
        pk.vk.delta_g2 = x 3 • g2 := by rw [hpk]; exact ⟨rfl, rfl, rfl, rfl⟩
    rw [hvk.1, hvk.2.1, hvk.2.2.1, hvk.2.2.2] at heq
    simp only [map_smul, LinearMap.smul_apply, smul_smul, ← add_smul] at heq
    have heq := sub_eq_zero.mpr heq
    rw [← sub_smul] at heq
    have hzero := (smul_eq_zero.mp heq).resolve_right he
    unfold identity
    simp only [map_add, map_sub, map_mul, MvPolynomial.eval_X, eval_T]
    have hm := congrArg (fun y => x 2 * x 3 * y) hzero
    simp only [mul_zero] at hm
    rw [← hm]
    field_simp
    ring

/-! An unsatisfiable instance: `x * x = 3` has no solution in `ZMod 17`.  Whatever the coefficients,
fewer than `17⁵` trapdoors accept; and `x * x = 9` with the coefficient `x = 3` is not excluded. -/

namespace Groth16Ex

theorem no_root (ws : List (ZMod 17)) : ¬ (runWith csG [3] ws).Sat (runWith csG [3] ws).witness := by
  intro h
  have := h ⟨[(.aux 0, 1)], [(.aux 0, 1)], [(.input 1, 1)]⟩ (by simp [runWith, csG])
  simp [R1C.Holds, LC.eval, CS.witness, runWith, csG] at this
  revert this
  generalize ws[0]?.getD 0 = a
  revert a
  decide

end Groth16Ex

open Groth16Ex in
example (A C : Coeffs1 (ZMod 17)) (B : Coeffs2 (ZMod 17)) :
    {x : Fin 5 → ZMod 17 | ∃ pk : Parameters (ZMod 17) (ZMod 17),
      generateParameters mk csG (x 0) (x 1) (x 2) (x 3) (x 4) 1 1 = .ok pk ∧
      verifyProof Groth16Ex.e (prepareVerifyingKey Groth16Ex.e pk.vk)
        ⟨A.apply pk 1, B.apply pk 1, C.apply pk 1⟩ [3] = .ok true}.ncard < 17 ^ 5 := by
  refine (C95_groth16_algebraic Groth16Ex.e 1 1 (by simp [Groth16Ex.e]) mk csG D4 rfl d4_valid
    (by decide) A C B [3] (no_root C.l)).trans_lt ?_
  rw [ZMod.card]
  decide

open Groth16Ex in
/-- The honest witness satisfies the conclusion of C95, so the theorem does not exclude honest
provers. -/
example : (runWith csG [9] [3]).Sat (runWith csG [9] [3]).witness := by
  intro k hk
  have : k = ⟨[(.aux 0, 1)], [(.aux 0, 1)], [(.input 1, 1)]⟩ := by simpa [runWith, csG] using hk
  subst this
  simp [R1C.Holds, LC.eval, CS.witness, runWith, csG]
  decide

end Zkp
