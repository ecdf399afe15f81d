/- Property C96: Groth16 proofs reveal nothing about the witness. -/
import Verif.Proof.Groth16Zk
import Verif.Props.Groth16

set_option linter.unusedSectionVars false

namespace Zkp

open Polynomial Groth16

variable {F : Type} [Field F] [DecidableEq F]
variable {G1 G2 : Type} [AddCommGroup G1] [AddCommGroup G2] [Module F G1] [Module F G2]

/-- The simulator: from the trapdoors, the verification key and the public inputs, without any
witness, and two field elements `x`, `y`. -/
def simulate (α β γ δ : F) (g1 : G1) (g2 : G2) (vk : VerifyKey G1 G2) (xs : List F) (x y : F) :
    Groth16.Proof G1 G2 :=
  ⟨x • g1, y • g2, δ⁻¹ • ((x * y - α * β) • g1 - γ • msm vk.gamma_abc_g1 (1 :: xs))⟩

/-- C96.  For every circuit, trapdoor (`γ, δ ≠ 0`), key and satisfying assignment there is a
bijection of pairs of field elements that turns the prover's randomness into the simulator's: the
proofs for a witness and the simulated proofs, made without one, have the same distribution. -/
theorem C96_simulation (mkDomain : Nat → Option (Domain F))
    (csG csP : CS F) (hc : csG.constraints = csP.constraints)
    (hi : csG.inputs.length = csP.inputs.length) (ha : csG.aux.length = csP.aux.length)
    (xs : List F) (hone : csP.inputs = 1 :: xs) (hr : inRange csP = true) (D : Domain F)
    (hD : mkDomain (csP.constraints.length + csP.inputs.length) = some D) (h : D.Valid)
    (hn : csP.constraints.length + csP.inputs.length ≤ D.size) (hs : csP.Sat csP.witness)
    (α β γ δ t : F) (hγ : γ ≠ 0) (hδ : δ ≠ 0) (g1 : G1) (g2 : G2) (pk : Parameters G1 G2)
    (hpk : generateParameters mkDomain csG α β γ δ t g1 g2 = .ok pk) :
    ∃ f : F × F ≃ F × F, ∀ r s, createProof mkDomain pk csP r s =
      .ok (simulate α β γ δ g1 g2 pk.vk xs (f (r, s)).1 (f (r, s)).2) := by
  obtain ⟨pk', a, b, di, h1, h2, h3⟩ := createProof_eq mkDomain csG csP hc hi ha xs hone hr hD h hn hs
    α β γ δ t hγ hδ g1 g2
  rw [hpk] at h1
  cases h1
  refine ⟨⟨fun p => (p.1 * δ + a + α, p.2 * δ + b + β),
    fun p => ((p.1 - a - α) * δ⁻¹, (p.2 - b - β) * δ⁻¹), ?_, ?_⟩, fun r s => ?_⟩
  · rintro ⟨r, s⟩
    have e1 : ∀ r a α : F, (r * δ + a + α - a - α) * δ⁻¹ = r := fun r a α => by
      rw [show r * δ + a + α - a - α = r * δ by ring, mul_assoc, mul_inv_cancel₀ hδ, mul_one]
    exact Prod.ext (e1 r a α) (e1 s b β)
  · rintro ⟨r, s⟩
    have e1 : ∀ r a α : F, (r - a - α) * δ⁻¹ * δ + a + α = r := fun r a α => by
      rw [mul_assoc, inv_mul_cancel₀ hδ]
      ring
    exact Prod.ext (e1 r a α) (e1 s b β)
  · rw [h3 r s, simulate, h2]
    simp only [Equiv.coe_fn_mk]
    congr 2
    match_scalars
    field_simp

/-- C96, for two witnesses: proofs for two satisfying assignments with the same public inputs, under
one key, are the same up to a bijection of the prover's randomness. -/
theorem C96_indistinguishable (mkDomain : Nat → Option (Domain F))
    (csG csP csQ : CS F) (hc : csG.constraints = csP.constraints)
    (hi : csG.inputs.length = csP.inputs.length) (ha : csG.aux.length = csP.aux.length)
    (hc' : csQ.constraints = csP.constraints) (hi' : csQ.inputs = csP.inputs)
    (ha' : csQ.aux.length = csP.aux.length)
    (xs : List F) (hone : csP.inputs = 1 :: xs) (hr : inRange csP = true) (D : Domain F)
    (hD : mkDomain (csP.constraints.length + csP.inputs.length) = some D) (h : D.Valid)
    (hn : csP.constraints.length + csP.inputs.length ≤ D.size) (hs : csP.Sat csP.witness)
    (hs' : csQ.Sat csQ.witness)
    (α β γ δ t : F) (hγ : γ ≠ 0) (hδ : δ ≠ 0) (g1 : G1) (g2 : G2) (pk : Parameters G1 G2)
    (hpk : generateParameters mkDomain csG α β γ δ t g1 g2 = .ok pk) :
    ∃ f : F × F ≃ F × F, ∀ r s, createProof mkDomain pk csP r s =
      createProof mkDomain pk csQ (f (r, s)).1 (f (r, s)).2 := by
  obtain ⟨f, hf⟩ := C96_simulation mkDomain csG csP hc hi ha xs hone hr D hD h hn hs α β γ δ t hγ hδ
    g1 g2 pk hpk
  obtain ⟨k, hk⟩ := C96_simulation mkDomain csG csQ (hc.trans hc'.symm) (hi.trans (by rw [hi']))
    (ha.trans ha'.symm) xs (hi'.trans hone)
    (by rw [inRange_congr hc' (by rw [hi']) ha', hr]) D (by rw [hc', hi', hD]) h (by rw [hc', hi']; exact hn)
    hs' α β γ δ t hγ hδ g1 g2 pk hpk
  refine ⟨f.trans k.symm, fun r s => ?_⟩
  rw [hf r s, hk]
  simp

/-! The circuit `x * x = 9` over `ZMod 17` has the witnesses `3` and `14`. -/

namespace Groth16Ex

/-- The run with the other root. -/
def csQ : CS (ZMod 17) := ⟨true, [1, 9], [14], [⟨[(.aux 0, 1)], [(.aux 0, 1)], [(.input 1, 1)]⟩]⟩

theorem csQ_sat : csQ.Sat csQ.witness := by
  intro k hk
  have : k = ⟨[(.aux 0, 1)], [(.aux 0, 1)], [(.input 1, 1)]⟩ := by simpa [csQ] using hk
  subst this
  simp [R1C.Holds, LC.eval, CS.witness, csQ]
  decide

end Groth16Ex

open Groth16Ex in
example : ∃ pk, generateParameters mk csG 2 3 5 7 6 (1 : ZMod 17) (1 : ZMod 17) = .ok pk ∧
    csP.aux ≠ csQ.aux ∧
    ∃ f : ZMod 17 × ZMod 17 ≃ ZMod 17 × ZMod 17, ∀ r s, createProof mk pk csP r s =
      createProof mk pk csQ (f (r, s)).1 (f (r, s)).2 := by
  obtain ⟨pk, hpk⟩ := (groth16_keygen_ok_iff mk csG 2 3 5 7 6 (1 : ZMod 17) (1 : ZMod 17)).2
    ⟨⟨D4, rfl⟩, by
      intro k hk u hu
      obtain rfl : k = ⟨[(.aux 0, 1)], [(.aux 0, 1)], [(.input 1, 1)]⟩ := by simpa [csG] using hk
      simp at hu
      rcases hu with rfl | rfl
      · exact Or.inr ⟨0, rfl, by decide⟩
      · exact Or.inl ⟨1, rfl, by decide⟩, by decide, by decide⟩
  exact ⟨pk, hpk, by decide, C96_indistinguishable mk csG csP csQ rfl rfl rfl rfl rfl rfl [9] rfl
    (by decide) D4 rfl d4_valid (by decide) csP_sat csQ_sat 2 3 5 7 6 (by decide) (by decide) 1 1 pk hpk⟩

end Zkp
