/- Property C114: the verifiers accept only as many public inputs as the circuit has.
(For Groth16 this is `groth16_wrong_length`, C31.) -/
import Verif.Props.Groth16
import Verif.Props.Bulletproofs
import Verif.Props.SpartanComplete
import Verif.Model.SpartanSnark
import Verif.Props.Marlin

set_option linter.unusedSectionVars false
set_option linter.unusedSimpArgs false

namespace Zkp.Bp

variable {F G : Type} [Field F] [DecidableEq F] [AddCommGroup G] [Module F G] [DecidableEq G]

/-- C114 for Bulletproofs: a list whose length is not that of the circuit stops the verifier. -/
theorem C114_bulletproofs (ch : Oracle F G) (gens : Generators G) (p : Bp.Proof F G) (circuit : R1csCircuit F)
    (publicInputs : List F) (h : publicInputs.length + 1 ≠ gens.k) :
    verifyProof ch gens p circuit publicInputs = none := by
  have key : ∀ y z : F, vectors gens circuit (1 :: publicInputs) y z = none := by
    intro y z
    unfold vectors
    simp only
    split
    · rfl
    · split
      · rfl
      · rename_i hn
        rw [Option.map_eq_none_iff]
        unfold vectorMatrixProductT
        rw [if_neg]
        intro hall
        rw [List.all_eq_true] at hall
        have h0 := hall _ (List.mem_map.mpr ⟨0, List.mem_range.mpr (Nat.pos_of_ne_zero hn), rfl⟩)
        simp only [List.length_map, List.length_range, List.length_cons, beq_iff_eq] at h0
        exact h h0.symm
  unfold verifyProof
  simp only [key]

/-- Two public inputs for a circuit with one. -/
example (ch : Oracle F17 F17) (p : Bp.Proof F17 F17) (circuit : R1csCircuit F17) :
    verifyProof ch ⟨[1], [2], 3, 4, 1, 1, 1, 2, 1⟩ p circuit [3, 4] = none :=
  C114_bulletproofs _ _ _ _ _ (by decide)

end Zkp.Bp

namespace Zkp.Spartan

open Ml

variable {F G : Type} [Field F] [DecidableEq F] [AddCommGroup G] [Module F G] [DecidableEq G]

theorem sparse_zeros (l r : List F) (k : Nat) :
    sparseEvaluateValue (l ++ List.replicate k 0) r = sparseEvaluateValue l r := by
  have : (List.replicate k (0 : F)).filter (fun v => decide (v ≠ 0)) = [] := by
    rw [List.filter_eq_nil_iff]
    intro a ha
    simp [(List.mem_replicate.mp ha).2]
  unfold sparseEvaluateValue
  rw [List.filter_append, this, List.append_nil]

theorem satVerify_zeros (ch : Oracle F G) (params : SatParams G) (r1cs : Inst F) (inputs : List F) (k : Nat)
    (h : inputs.length + k + 1 ≤ r1cs.t) (proof : SatProof F G) (evals : F × F × F) :
    satVerify ch params r1cs (inputs ++ List.replicate k 0) proof evals = satVerify ch params r1cs inputs proof evals := by
  have e1 : decide ((inputs ++ List.replicate k (0 : F)).length + 1 ≤ r1cs.t) = true := by
    simp; omega
  have e2 : decide (inputs.length + 1 ≤ r1cs.t) = true := by
    simp; omega
  have e3 : (1 : F) :: (inputs ++ List.replicate k 0) ++
      List.replicate (r1cs.t - (inputs ++ List.replicate k (0 : F)).length - 1) 0 =
      1 :: inputs ++ List.replicate (r1cs.t - inputs.length - 1) 0 := by
    simp only [List.cons_append, List.append_assoc, List.replicate_append_replicate, List.length_append,
      List.length_replicate]
    congr 3
    omega
  have e4 : ∀ (m : Nat) (r : List F), sparseEvaluateValue ((1 : F) :: (inputs ++ List.replicate k 0) ++ List.replicate m 0) r =
      sparseEvaluateValue (1 :: inputs) r := by
    intro m r
    rw [sparse_zeros, ← List.cons_append, sparse_zeros]
  have e5 : ∀ (m : Nat) (r : List F), sparseEvaluateValue ((1 : F) :: inputs ++ List.replicate m 0) r =
      sparseEvaluateValue (1 :: inputs) r := fun m r => sparse_zeros _ _ _
  unfold satVerify
  simp only [e1, e2, e3, e4, e5]

/-- C114 fails for Spartan, NIZK: whatever the proof and the hash function, the verdict stays the same when zeros
are added to the public inputs, up to the width of the input half. -/
theorem C114_nizk_zeros (ch : Oracle F G) (params : SatParams G) (r1cs : Inst F) (inputs : List F) (k : Nat)
    (h : inputs.length + k + 1 ≤ r1cs.t) (proof : NizkProof F G) (r1csHash paramsHash : F) :
    verifyNizk ch params r1cs (inputs ++ List.replicate k 0) proof r1csHash paramsHash =
      verifyNizk ch params r1cs inputs proof r1csHash paramsHash := by
  unfold verifyNizk
  simp only [satVerify_zeros ch params r1cs inputs k h]

/-- C114 fails for Spartan, SNARK, in the same way. -/
theorem C114_snark_zeros (ch : Oracle F G) (satParams : SatParams G) (evalParams : EvalsParams G) (r1cs : Inst F)
    (inputs : List F) (k : Nat) (h : inputs.length + k + 1 ≤ r1cs.t) (proof : SnarkProof F G) (commit : EncodeCommit G)
    (r1csHash paramsHash encodeHash : F) :
    verifySnark ch satParams evalParams r1cs (inputs ++ List.replicate k 0) proof commit r1csHash paramsHash encodeHash =
      verifySnark ch satParams evalParams r1cs inputs proof commit r1csHash paramsHash encodeHash := by
  unfold verifySnark
  simp only [satVerify_zeros ch satParams r1cs inputs k h]

/-- C114, what Spartan checks: more values than the input half has places stop the verifier, so an accepted list
has less than `t` values.  Missing: that it has as many as the circuit. -/
theorem C114_nizk_partial (ch : Oracle F G) (params : SatParams G) (r1cs : Inst F) (inputs : List F)
    (h : r1cs.t < inputs.length + 1) (proof : NizkProof F G) (r1csHash paramsHash : F) :
    verifyNizk ch params r1cs inputs proof r1csHash paramsHash = .error .panic := by
  unfold verifyNizk
  split
  · have : decide (inputs.length + 1 ≤ r1cs.t) = false := by simp; omega
    unfold satVerify
    simp only [this]
    rfl
  · rfl

/-- C114 fails for Spartan: the honest proof for the public inputs 6 and 9 is also accepted for 6, 9 and 0. -/
theorem C114_violated : ∃ (params : SatParams F17) (cs : CS F17) (ch : Oracle F17 F17) (rand : SatRand F17)
    (proof : NizkProof F17 F17), cs.inputs = [1, 6, 9] ∧ cs.Valid ∧
    createNizk ch params (generateR1cs cs) cs rand 1 2 = .ok proof ∧
    verifyNizk ch params (generateR1cs cs) [6, 9] proof 1 2 = .ok () ∧
    verifyNizk ch params (generateR1cs cs) [6, 9, 0] proof 1 2 = .ok () := by
  obtain ⟨h1, h2⟩ := C79_partial (by decide : (2 : F17) ≠ 0) (by decide : (3 : F17) ≠ 0) Ex79.params rfl rfl
    (by simp [Ex79.params]) (Ex79.circuit 6 3 9) (Ex79.circuit_closed _ _ _) (Ex79.circuit_valid 6 3) [6, 9] rfl (.of_ne (by decide))
    (by rw [Ex79.t_eq, Ex79.clog4]; decide) Ex79.rand (Ex79.rand_shape _ _ _) Ex79.ch 1 2
  obtain ⟨proof, hp⟩ := h2 Ex79.ch_ne
  refine ⟨Ex79.params, Ex79.circuit 6 3 9, Ex79.ch, Ex79.rand, proof, rfl, Ex79.circuit_valid 6 3, hp, h1 proof hp, ?_⟩
  have := C114_nizk_zeros Ex79.ch Ex79.params (generateR1cs (Ex79.circuit 6 3 9)) [6, 9] 1
    (by rw [Ex79.t_eq]; decide) proof 1 2
  rw [show ([6, 9, 0] : List F17) = [6, 9] ++ List.replicate 1 0 from rfl, this]
  exact h1 proof hp

/-- Four values do not fit. -/
example (proof : NizkProof F17 F17) :
    verifyNizk Ex79.ch Ex79.params (generateR1cs (Ex79.circuit 6 3 9)) [6, 9, 0, 0] proof 1 2 = .error .panic :=
  C114_nizk_partial _ _ _ _ (by rw [Ex79.t_eq]; decide) _ _ _

/-- A zero is appended to two inputs. -/
example (proof : NizkProof F17 F17) :
    verifyNizk Ex79.ch Ex79.params (generateR1cs (Ex79.circuit 6 3 9)) ([6, 9] ++ List.replicate 1 0) proof 1 2 =
      verifyNizk Ex79.ch Ex79.params (generateR1cs (Ex79.circuit 6 3 9)) [6, 9] proof 1 2 :=
  C114_nizk_zeros _ _ _ _ _ (by rw [Ex79.t_eq]; decide) _ _ _

example (params : EvalsParams F17) (proof : SnarkProof F17 F17) (commit : EncodeCommit F17) :
    verifySnark Ex79.ch Ex79.params params (generateR1cs (Ex79.circuit 6 3 9)) ([6] ++ List.replicate 2 0) proof commit 1 2 3 =
      verifySnark Ex79.ch Ex79.params params (generateR1cs (Ex79.circuit 6 3 9)) [6] proof commit 1 2 3 :=
  C114_snark_zeros _ _ _ _ _ _ (by rw [Ex79.t_eq]; decide) _ _ _ _ _

end Zkp.Spartan

namespace Zkp.Marlin

open Ex17

/-- C114 fails for Marlin: the key does not hold the number of inputs.  For the circuit of C35 with one public input
proofs are accepted for no and for three public inputs, for every trapdoor and every such hash function. -/
theorem C114_marlin_violated (checked : Bool) (τ g γ h : F17) (rng : FsRng F17 F17 F17)
    (hr : ∀ m, D4.vanishing (rng.draw m 0) ≠ 0) (e : F17 →ₗ[F17] F17 →ₗ[F17] F17) :
    badCircuit.inputs.length = 2 ∧
    ∃ ipk ivk, index checked mkAll (Kzg.setup 13 τ g γ h) badCircuit = .ok (ipk, ivk) ∧
      (∃ proof, verify mkAll rng e ivk proof [] = .ok true) ∧
      ∀ x y z, ∃ proof, verify mkAll rng e ivk proof [x, y, z] = .ok true := by
  obtain ⟨ipk, ivk, hi, hinfo⟩ := badCircuit_index checked τ g γ h
  have hsamp : ∀ stream : Nat → F17, D4.vanishing (stream 0) ≠ 0 → ∃ x, sampleOutside D4 stream 0 = some x := by
    intro stream h0
    unfold sampleOutside
    rw [dif_pos ⟨0, le_rfl, h0⟩]
    exact ⟨_, rfl⟩
  have hs : ∀ pi : List F17, ∃ s0, challenges mkAll rng ivk pi [] [] [] = .ok s0 := by
    intro pi
    unfold challenges
    dsimp only
    rw [hinfo]
    have e2 : domain mkAll 3 = .ok D4 := by rfl
    have e3 : domain mkAll 2 = .ok K2 := by rfl
    obtain ⟨⟨α, k⟩, e4⟩ := hsamp (rng.draw [.seed ivk pi, .comms []]) (hr _)
    obtain ⟨⟨β, l⟩, e5⟩ := hsamp (rng.draw ([.seed ivk pi, .comms []] ++ [.comms []])) (hr _)
    simp only [ne_eq, not_true_eq_false, if_false, e2, e3, bind, Except.bind, e4, e5]
    exact ⟨_, rfl⟩
  have hb : degreeBounds mkAll ivk.info
      = .ok [none, none, none, none, none, some 2, none, some 0, none] := by rw [hinfo]; rfl
  have hall : ∀ pi : List F17, (∃ D, mkAll (1 :: pi).length = some D) → ∃ proof, verify mkAll rng e ivk proof pi = .ok true := by
    rintro pi ⟨D, hD⟩
    obtain ⟨s0, hs0⟩ := hs pi
    exact ⟨_, C35_forgery mkAll_ok rng e hi pi hs0 hb hD⟩
  exact ⟨rfl, ipk, ivk, hi, hall [] ⟨_, rfl⟩, fun x y z => hall [x, y, z] ⟨_, rfl⟩⟩

/-- With a generator that always draws 3. -/
example (τ : F17) (e : F17 →ₗ[F17] F17 →ₗ[F17] F17) :
    ∃ ipk ivk, index true mkAll (Kzg.setup 13 τ 1 5 1) badCircuit = .ok (ipk, ivk) ∧
      ∃ proof, verify mkAll ⟨fun _ _ => 3, fun _ => 4⟩ e ivk proof [2, 7, 5] = .ok true := by
  obtain ⟨-, ipk, ivk, hi, -, h⟩ := C114_marlin_violated true τ 1 5 1 ⟨fun _ _ => 3, fun _ => 4⟩
    (fun _ => by show D4.vanishing 3 ≠ 0; decide +kernel) e
  exact ⟨ipk, ivk, hi, h 2 7 5⟩

end Zkp.Marlin
