/- Property C94: the on-chain verifiers with a fixed layered circuit. -/
import Verif.Model.GkrContracts
import Verif.Props.Tools
import Verif.Props.LibraZkSound
import Verif.Props.Hyrax

set_option linter.unusedSectionVars false
set_option linter.unusedSimpArgs false

namespace Zkp.Contracts
open Zkp.Gkr Zkp.Hx Zkp.Lz Zkp.Cp Zkp.Spartan Zkp.Sc

variable {F : Type} [Field F] {G : Type} [AddCommGroup G] [Module F G] [DecidableEq F] [DecidableEq G]

theorem clog4 : Nat.clog 2 (max 4 4) = 2 := by decide

theorem layers_new : ∃ c, Circuit.new 4 4 layers = .ok c :=
  (C55_accepted 4 4 layers).2 (by rw [clog4]; simp [layers, LegalLayers, Legal])

/-- What the circuit computes from witness `w` and public inputs `x`. -/
theorem C94_circuit (w0 w1 w2 w3 x0 x1 x2 x3 : F) :
    topValues ([w0, w1, w2, w3] ++ [x0, x1, x2, x3]) layers = [(w1 + w2) * (w0 * x0) + w3 * x0 * (x0 * x0)] := by
  simp [layers, topValues, circuitValues, gateValue]

/-- Every output is that of some witness, unless the first public input is zero; then only zero is. The other three public
inputs do not matter. -/
theorem C94_free (x0 x1 x2 x3 z : F) :
    (∃ w : List F, w.length = 4 ∧ topValues (w ++ [x0, x1, x2, x3]) layers = [z]) ↔ x0 ≠ 0 ∨ z = 0 := by
  constructor
  · rintro ⟨w, hw, h⟩
    obtain ⟨w0, w1, w2, w3, rfl⟩ : ∃ a b c d, w = [a, b, c, d] := by
      match w, hw with
      | [a, b, c, d], _ => exact ⟨a, b, c, d, rfl⟩
    rw [C94_circuit] at h
    by_cases hx : x0 = 0
    · right
      simpa [hx] using h.symm
    · exact .inl hx
  · rintro (h | rfl)
    · refine ⟨[x0⁻¹, z, 0, 0], rfl, ?_⟩
      rw [C94_circuit]
      simp [h]
    · refine ⟨[0, 0, 0, 0], rfl, ?_⟩
      rw [C94_circuit]
      simp

/-- The Libra contract ends with code 0 exactly if the three cells are there and can be decoded and `verify` returns `true`. -/
theorem C94_libra_exact (ch : Oracle F G) (cH : Circuit → F) (pH : Params G → F) (decVk : List UInt8 → Option (Params G))
    (decProof : List UInt8 → Option (ZkGkrProof F G)) (decPub : List UInt8 → Option (List F × List F))
    (cells : Nat → Except SysError (List UInt8)) (c : Circuit) (hc : Circuit.new 4 4 layers = .ok c) :
    programEntry (libraMain ch cH pH decVk decProof decPub cells) = some 0 ↔
      ∃ d0 d1 d2 params proof inputs outputs, cells 0 = .ok d0 ∧ cells 1 = .ok d1 ∧ cells 2 = .ok d2 ∧
        decVk d0 = some params ∧ decProof d1 = some proof ∧ decPub d2 = some (inputs, outputs) ∧
        zkVerify ch params c outputs inputs (cH c) (pH params) proof = .ok true := by
  unfold libraMain
  rw [C66_exact]
  have key : ∀ params proof (x : List F × List F), libraVerdict ch cH pH params proof x = some (some true) ↔
      zkVerify ch params c x.2 x.1 (cH c) (pH params) proof = .ok true := by
    intro params proof x
    unfold libraVerdict
    rw [hc]
    cases h : zkVerify ch params c x.2 x.1 (cH c) (pH params) proof with
    | error e => simp [h]
    | ok b => simp [h]
  simp only [key]
  constructor
  · rintro ⟨d0, d1, d2, vk, p, x, h⟩
    exact ⟨d0, d1, d2, vk, p, x.1, x.2, h⟩
  · rintro ⟨d0, d1, d2, vk, p, i, o, h⟩
    exact ⟨d0, d1, d2, vk, p, (i, o), h⟩

/-- C94 for Libra, what an accepted proof shows (up to the challenges counted in C88): the committed witness gives the published
outputs by the formula of `C94_circuit`. -/
theorem C94_libra_partial (params : Params G) (hp : GoodZk F params) (c : Circuit) (hc : Circuit.new 4 4 layers = .ok c)
    (inputs outputs : List F) (k0 k1 : Nat) :
    ∃ (ext : List G → List F) (bad : Transcript F G → List F → Finset F),
      (∀ t vs, (bad t vs).card ≤ 6) ∧ (∀ com, (ext com).length = 4) ∧
      (∀ w blinds com t t', w.length = 4 → 2 ≤ params.pc.genN.generators.length →
        packCommit params.pc.genN.generators params.pc.genN.h w blinds t = .ok (com, t') → ext com = w) ∧
      ∀ (ch : Oracle F G) (cH : Circuit → F) (pH : Params G → F) (decVk : List UInt8 → Option (Params G))
        (decProof : List UInt8 → Option (ZkGkrProof F G)) (decPub : List UInt8 → Option (List F × List F))
        (vkData proofData pubData : List UInt8) (proof : ZkGkrProof F G), decVk vkData = some params →
        decProof proofData = some proof → decPub pubData = some (inputs, outputs) →
        proof.prod0.L.length = k0 → proof.prod1.L.length = k1 →
        programEntry (libraMain ch cH pH decVk decProof decPub
          (fun i => if i = 0 then .ok vkData else if i = 1 then .ok proofData else .ok pubData)) = some 0 →
        ∃ tr', zkVerifyRun ch params c outputs inputs proof (zkStart (cH c) (pH params) inputs outputs) = .ok ((), tr') ∧
          numChal tr' = numChallenges c k0 k1 ∧ ((inputs.length ≤ 4 ∧ ∃ w0 w1 w2 w3, ext proof.witness = [w0, w1, w2, w3] ∧
          outputs.getD 0 0 = (w1 + w2) * (w0 * inputs.getD 0 0) + w3 * inputs.getD 0 0 * (inputs.getD 0 0 * inputs.getD 0 0) ∧
          ∀ i, 1 ≤ i → outputs.getD i 0 = 0) ∨
          Hit ch bad (zkStart (cH c) (pH params) inputs outputs) tr') := by
  obtain ⟨ext, bad, h1, h2, h3, h4⟩ := C88 params hp 4 4 layers c hc (by simp [layers]) 2 clog4.symm inputs outputs k0 k1
  refine ⟨ext, bad, h1, h2, fun w blinds com t t' hw hg => h3 w blinds com t t' hw (by simpa using hg), ?_⟩
  intro ch cH pH decVk decProof decPub vkData proofData pubData proof hvk hproof hpub hk0 hk1 h
  obtain ⟨d0, d1, d2, params', proof', inputs', outputs', e0, e1, e2, f0, f1, f2, hv⟩ := (C94_libra_exact _ _ _ _ _ _ _ c hc).1 h
  simp only [if_true, if_false, reduceIte, Nat.one_ne_zero, OfNat.ofNat_ne_zero, OfNat.ofNat_ne_one, Except.ok.injEq] at e0 e1 e2
  subst e0 e1 e2
  rw [hvk] at f0
  rw [hproof] at f1
  rw [hpub] at f2
  obtain rfl := Option.some.inj f0
  obtain rfl := Option.some.inj f1
  obtain ⟨rfl, rfl⟩ := Prod.mk.inj (Option.some.inj f2)
  unfold Lz.zkVerify at hv
  split at hv
  · rename_i r hr
    refine ⟨r.2, hr, (h4 ch (cH c) (pH params) proof r.2 hk0 hk1 hr).1, (h4 ch (cH c) (pH params) proof r.2 hk0 hk1 hr).2.imp (fun ⟨hi, ho⟩ => ⟨by simpa using hi, ?_⟩) id⟩
    obtain ⟨w0, w1, w2, w3, hw⟩ : ∃ a b c d, ext proof.witness = [a, b, c, d] := by
      have := h2 proof.witness
      match ext proof.witness, this with
      | [a, b, c, d], _ => exact ⟨a, b, c, d, rfl⟩
    rw [hw] at ho
    obtain ⟨x0, x1, x2, x3, hx⟩ : ∃ a b c d, inputs ++ List.replicate (2 ^ 2 - inputs.length) 0 = [a, b, c, d] := by
      have : (inputs ++ List.replicate (2 ^ 2 - inputs.length) (0 : F)).length = 4 := by
        rw [List.length_append, List.length_replicate]; omega
      match inputs ++ List.replicate (2 ^ 2 - inputs.length) (0 : F), this with
      | [a, b, c, d], _ => exact ⟨a, b, c, d, rfl⟩
    have hx0 : inputs.getD 0 0 = x0 := by
      cases inputs with
      | nil => simp at hx; rw [← hx.1]; rfl
      | cons a l => simp at hx; rw [← hx.1]; rfl
    unfold inputTable at ho
    rw [hx, C94_circuit] at ho
    refine ⟨w0, w1, w2, w3, hw, ?_, fun i hi => ?_⟩
    · rw [hx0]
      simpa using ho 0
    · have := ho i
      obtain ⟨j, rfl⟩ : ∃ j, i = j + 1 := ⟨i - 1, by omega⟩
      simpa using this
  · cases hv

/-- C94 is violated by the Libra contract: for every `x`, `y` and `z`, whether `x (y + 2) = z` or not, the honest prover's proof
for the witness `x, y, 0, 0` and the public inputs `2, -z, 1, 0` (those of libra/tests/mini.rs:43-44) is accepted. The published
output is `2 x y` and says nothing about `z`. -/
theorem C94_libra_violated (h2 : (2 : F) ≠ 0) (ch : Oracle F G) (hch : ∀ t, ch (t ++ [.chal "x"]) ≠ 0) (num : Nat)
    (hnum : 2 ≤ num) (r : ParamRand G) (cH : Circuit → F) (pH : Params G → F) (decVk : List UInt8 → Option (Params G))
    (decProof : List UInt8 → Option (ZkGkrProof F G)) (encProof : ZkGkrProof F G → List UInt8)
    (henc : ∀ p, decProof (encProof p) = some p) (decPub : List UInt8 → Option (List F × List F)) (vkData pubData : List UInt8)
    (hvk : decVk vkData = some (paramsNew num r)) (x y z : F) (hpub : decPub pubData = some ([2, -z, 1, 0], [y * (x * 2)]))
    (rand : GkrRand F) (hb : rand.witness.length = 2) (hr : ∀ i, (rand.layers i).Ok) (hb0 : 1 ≤ rand.in0.bullet.length)
    (hb1 : 1 ≤ rand.in1.bullet.length) :
    ∃ c proof, Circuit.new 4 4 layers = .ok c ∧
      zkProver ch (paramsNew num r) c [2, -z, 1, 0] [x, y, 0, 0] (cH c) (pH (paramsNew num r)) rand =
        .ok (proof, [y * (x * 2)]) ∧
      programEntry (libraMain ch cH pH decVk decProof decPub
        (fun i => if i = 0 then .ok vkData else if i = 1 then .ok (encProof proof) else .ok pubData)) = some 0 := by
  obtain ⟨c, hc⟩ := layers_new
  obtain ⟨proof, hp, hv⟩ := C87_partial h2 ch hch num r 4 4 layers c hc (by simp [layers])
    (fun l hl => by
      simp only [layers, List.dropLast_cons_cons, List.dropLast_singleton, List.mem_cons, List.not_mem_nil, or_false] at hl
      rcases hl with rfl | rfl
      · exact ⟨2, by omega, rfl⟩
      · exact ⟨1, le_rfl, rfl⟩)
    2 clog4.symm [2, -z, 1, 0] [x, y, 0, 0] rfl rfl le_rfl le_rfl hnum (cH c) (pH (paramsNew num r)) rand (by simpa using hb) hr
    (by simpa using hb0) (by simpa using hb1)
  have ho : honest layers [2, -z, 1, 0] [x, y, 0, 0] = [y * (x * 2)] := by
    rw [honest, C94_circuit]
    simp
  rw [ho] at hp hv
  refine ⟨c, proof, hc, hp, (C94_libra_exact _ _ _ _ _ _ _ c hc).2 ⟨vkData, encProof proof, pubData, _, proof, _, _, ?_, ?_, ?_,
    hvk, henc proof, hpub, hv⟩⟩
  · simp
  · simp
  · simp

/-- C94 is violated by the Hyrax contract: with public inputs zero every published output is accepted, although the circuit
gives zero for every witness. -/
theorem C94_hyrax_violated (ch : Oracle F G) (params : Params G) (hg : params.pc.genN.generators ≠ [])
    (h1 : params.pc.gen1.generators ≠ []) (cH : Circuit → F) (pH : Params G → F) (decVk : List UInt8 → Option (Params G))
    (decProof : List UInt8 → Option (HyraxProof F G)) (encProof : HyraxProof F G → List UInt8)
    (henc : ∀ p, decProof (encProof p) = some p) (decPub : List UInt8 → Option (List (List F) × List (List F)))
    (vkData pubData : List UInt8) (hvk : decVk vkData = some params) (z : F)
    (hpub : decPub pubData = some ([[0, 0, 0, 0], [0, 0, 0, 0]], [[z], [z]])) :
    (∀ w : List F, w.length = 4 → topValues (w ++ [0, 0, 0, 0]) layers = [0]) ∧
    ∃ proof, programEntry (hyraxMain ch cH pH decVk decProof decPub
      (fun i => if i = 0 then .ok vkData else if i = 1 then .ok (encProof proof) else .ok pubData)) = some 0 := by
  refine ⟨fun w hw => ?_, ?_⟩
  · match w, hw with
    | [a, b, c, d], _ => rw [C94_circuit]; simp
  obtain ⟨c, hc⟩ := layers_new
  obtain ⟨proof, tr', h⟩ := C53_zero ch params hg h1 4 4 [[(0, 1, 2), (1, 0, 4), (1, 3, 4), (1, 4, 4)], [(1, 0, 1), (1, 2, 3)]]
    [(0, 0, 1)] c hc [[z], [z]] [[0, 0, 0, 0], [0, 0, 0, 0]] 1 le_rfl rfl rfl (by simp) (by simp) (by simp) (cH c) (pH params) []
  refine ⟨proof, ?_⟩
  unfold hyraxMain
  rw [C66_exact]
  refine ⟨vkData, encProof proof, pubData, params, proof, _, by simp, by simp, by simp, hvk, henc proof, hpub, ?_⟩
  unfold hyraxVerdict
  rw [hc]
  simp only [h]

/-- `C94_libra_violated`: an accepted proof over 17 elements with `x = 2`, `y = 3`, `z = 11`. The decoders know one cell each; the
proof is encoded by itself (`decProof` ignores its argument and `encProof` is only required to be decoded). -/
example : (2 : F17) * (3 + 2) ≠ 11 ∧ ∃ c proof, Circuit.new 4 4 layers = .ok c ∧
    programEntry (libraMain exChal (fun _ => 1) (fun _ => 2) (fun _ => some (paramsNew 2 exPoints)) (fun _ => some proof)
      (fun _ => some ([2, -11, 1, 0], [3 * (2 * 2)])) (fun _ => .ok [])) = some 0 := by
  refine ⟨by decide, ?_⟩
  obtain ⟨c, hc⟩ := layers_new
  obtain ⟨proof, -, hv⟩ := C87_partial (F := F17) (G := F17) (by decide) exChal (fun t => exChal_ne _) 2 exPoints 4 4 layers c hc
    (by simp [layers]) (fun l hl => by
      simp only [layers, List.dropLast_cons_cons, List.dropLast_singleton, List.mem_cons, List.not_mem_nil, or_false] at hl
      rcases hl with rfl | rfl
      · exact ⟨2, by omega, rfl⟩
      · exact ⟨1, le_rfl, rfl⟩)
    2 clog4.symm [2, -11, 1, 0] [2, 3, 0, 0] rfl rfl le_rfl le_rfl le_rfl 1 2 (exGkrRand 2) rfl (exGkrRand_ok 2)
    (by simp [exGkrRand]) (by simp [exGkrRand])
  have ho : honest layers [2, -11, 1, 0] [2, 3, 0, 0] = ([3 * (2 * 2)] : List F17) := by
    rw [honest, C94_circuit]
    simp
  rw [ho] at hv
  exact ⟨c, proof, hc, (C94_libra_exact _ _ _ _ _ _ _ c hc).2 ⟨[], [], [], _, proof, _, _, rfl, rfl, rfl, rfl, rfl, rfl, hv⟩⟩

/-- `C94_free`: 5 is the output of some witness for first input 2, and of none for first input 0. -/
example : (∃ w : List F17, w.length = 4 ∧ topValues (w ++ [2, 9, 9, 9]) layers = [5]) ∧
    ¬ ∃ w : List F17, w.length = 4 ∧ topValues (w ++ [0, 9, 9, 9]) layers = [5] := by
  rw [C94_free, C94_free]
  decide

/-- `C94_libra_partial`: parameters that meet its hypothesis. -/
example : GoodZk F17 (paramsNew 2 exVectors) ∧ ∃ c, Circuit.new 4 4 layers = .ok c := ⟨exVectors_good, layers_new⟩

/-- `C94_hyrax_violated`: parameters that meet its hypotheses. -/
example : (paramsNew 2 exPoints).pc.genN.generators ≠ [] ∧ (paramsNew 2 exPoints).pc.gen1.generators ≠ [] := by decide +kernel

end Zkp.Contracts
