/- C118: can an accepted proof be changed by somebody who does not know the witness? -/
import Verif.Props.Groth16
import Verif.Props.MarlinComplete
import Verif.Props.PlonkComplete

set_option linter.unusedSectionVars false

namespace Zkp

open Polynomial

variable {F : Type} [Field F] [DecidableEq F]
variable {G1 G2 GT : Type} [AddCommGroup G1] [AddCommGroup G2] [AddCommGroup GT]
  [Module F G1] [Module F G2] [Module F GT]

/-- C118: no rule that sees the verifying key `K` and the proof only turns accepted proofs into other accepted proofs for the same
public inputs.  The rule is any function here; the ones found below are a few additions of points of the key and the proof, or
append an empty vector. -/
def C118_statement {K P I : Type} (accepts : K → P → I → Prop) : Prop :=
  (∃ k p x, accepts k p x) → ¬ ∃ f : K → P → P, ∀ k p x, accepts k p x → accepts k (f k p) x ∧ f k p ≠ p

/-! ### Groth16 -/

/-- The exchange of a factor between the first two points. -/
def rescale (r : F) (p : Groth16.Proof G1 G2) : Groth16.Proof G1 G2 := ⟨r • p.a, r⁻¹ • p.b, p.c⟩

/-- A multiple of `δ` added to the second point, with the correction of the third. -/
def shift (s : F) (δ : G2) (p : Groth16.Proof G1 G2) : Groth16.Proof G1 G2 := ⟨p.a, p.b + s • δ, p.c + s • p.a⟩

theorem C118_groth16_rescale [DecidableEq GT] (e : G1 →ₗ[F] G2 →ₗ[F] GT) (vk : Groth16.VerifyKey G1 G2)
    (p : Groth16.Proof G1 G2) (xs : List F) (r : F) (hr : r ≠ 0) :
    Groth16.verifyProof e (Groth16.prepareVerifyingKey e vk) (rescale r p) xs =
      Groth16.verifyProof e (Groth16.prepareVerifyingKey e vk) p xs := by
  have : e (r • p.a) (r⁻¹ • p.b) = e p.a p.b := by
    rw [map_smul, map_smul, LinearMap.smul_apply, smul_smul, inv_mul_cancel₀ hr, one_smul]
  simp only [Groth16.verifyProof, rescale, this]

theorem C118_groth16_shift [DecidableEq GT] (e : G1 →ₗ[F] G2 →ₗ[F] GT) (vk : Groth16.VerifyKey G1 G2)
    (p : Groth16.Proof G1 G2) (xs : List F) (s : F) :
    Groth16.verifyProof e (Groth16.prepareVerifyingKey e vk) (shift s vk.delta_g2 p) xs =
      Groth16.verifyProof e (Groth16.prepareVerifyingKey e vk) p xs := by
  have : ∀ g : GT, e p.a (p.b + s • vk.delta_g2) + g + e (p.c + s • p.a) (-vk.delta_g2) =
      e p.a p.b + g + e p.c (-vk.delta_g2) := by
    intro g
    simp only [map_add, map_smul, LinearMap.add_apply, LinearMap.smul_apply, map_neg, smul_neg]
    abel
  simp only [Groth16.verifyProof, shift, Groth16.prepareVerifyingKey, this]

/-- The form of the keys made by `generateParameters`. -/
def GoodKey (e : G1 →ₗ[F] G2 →ₗ[F] GT) (vk : Groth16.VerifyKey G1 G2) : Prop := ∀ c, e c vk.delta_g2 = 0 → c = 0

/-- C118 is violated by Groth16: over every field, for all accepted proofs under keys with `δ` not zero, `shift 1` gives another
one. -/
theorem C118_violated_groth16 [DecidableEq GT] (e : G1 →ₗ[F] G2 →ₗ[F] GT)
    (hex : ∃ vk p xs, GoodKey e vk ∧
      Groth16.verifyProof e (Groth16.prepareVerifyingKey e vk) p xs = .ok true) (hG : ∃ g : G1, g ≠ 0) :
    ¬ C118_statement fun (vk : Groth16.VerifyKey G1 G2) (p : Groth16.Proof G1 G2) (xs : List F) => GoodKey e vk ∧
      Groth16.verifyProof e (Groth16.prepareVerifyingKey e vk) p xs = .ok true := by
  intro h
  refine h hex ⟨fun vk p => shift (1 : F) vk.delta_g2 p, fun vk p xs ⟨hk, hv⟩ =>
    ⟨⟨hk, (C118_groth16_shift e vk p xs 1).trans hv⟩, fun he => ?_⟩⟩
  have hb := congrArg Groth16.Proof.b he
  simp only [shift, one_smul, add_eq_left] at hb
  obtain ⟨g, hg⟩ := hG
  exact hg (hk g (by rw [hb, map_zero]))

/-- What holds for Groth16: each of the three points is determined by the two others (the first two if the pairing with the other
one is not degenerate). -/
theorem C118_groth16_partial [DecidableEq GT] (e : G1 →ₗ[F] G2 →ₗ[F] GT) (vk : Groth16.VerifyKey G1 G2)
    (p q : Groth16.Proof G1 G2) (xs : List F)
    (hp : Groth16.verifyProof e (Groth16.prepareVerifyingKey e vk) p xs = .ok true)
    (hq : Groth16.verifyProof e (Groth16.prepareVerifyingKey e vk) q xs = .ok true) :
    (GoodKey e vk → p.a = q.a → p.b = q.b → p.c = q.c) ∧
    ((∀ a, e a p.b = 0 → a = 0) → p.b = q.b → p.c = q.c → p.a = q.a) ∧
    ((∀ b, e p.a b = 0 → b = 0) → p.a = q.a → p.c = q.c → p.b = q.b) := by
  by_cases hl : xs.length + 1 = vk.gamma_abc_g1.length
  · obtain ⟨b, hb, hi⟩ := groth16_verify_iff e vk p xs hl
    obtain ⟨b', hb', hi'⟩ := groth16_verify_iff e vk q xs hl
    rw [hp] at hb
    rw [hq] at hb'
    have h1 := hi.1 (Except.ok.inj hb).symm
    have h2 := hi'.1 (Except.ok.inj hb').symm
    refine ⟨fun hk ha hb => ?_, fun hd hb hc => ?_, fun hd ha hc => ?_⟩
    · rw [← sub_eq_zero]
      apply hk
      rw [ha, hb, h2] at h1
      rw [map_sub, LinearMap.sub_apply, sub_eq_zero]
      exact (add_left_cancel h1).symm
    · rw [← sub_eq_zero]
      apply hd
      rw [map_sub, LinearMap.sub_apply, h1, hb, h2, hc, sub_self]
    · rw [← sub_eq_zero]
      apply hd
      rw [map_sub, h1, ha, h2, hc, sub_self]
  · rw [groth16_wrong_length e vk p xs hl] at hp
    cases hp

namespace Groth16Ex

/-- An accepted proof for the example circuit and its changed forms. -/
theorem exProof : ∃ vk : Groth16.VerifyKey (ZMod 17) (ZMod 17), ∃ p, GoodKey e vk ∧
    Groth16.verifyProof e (Groth16.prepareVerifyingKey e vk) p [9] = .ok true ∧
    Groth16.verifyProof e (Groth16.prepareVerifyingKey e vk) (rescale (5 : ZMod 17) p) [9] = .ok true ∧
    Groth16.verifyProof e (Groth16.prepareVerifyingKey e vk) (shift (5 : ZMod 17) vk.delta_g2 p) [9] = .ok true := by
  obtain ⟨pk, pf, hk, -, hv⟩ := groth16_complete e mk csG csP rfl rfl rfl [9] rfl (by decide) D4 rfl d4_valid (by decide)
    csP_sat 2 3 5 7 6 (by decide) (by decide) (1 : ZMod 17) (1 : ZMod 17) 11 13
  refine ⟨pk.vk, pf, ?_, hv, ?_, ?_⟩
  · have hδ : pk.vk.delta_g2 = (7 : ZMod 17) • (1 : ZMod 17) := by
      unfold Groth16.generateParameters at hk
      split at hk
      · cases hk
      · split_ifs at hk
        exact (congrArg (fun k => k.vk.delta_g2) (Except.ok.inj hk)).symm
    intro c hc
    rw [hδ] at hc
    revert c
    simp only [e]
    decide
  · rw [C118_groth16_rescale _ _ _ _ _ (by decide), hv]
  · rw [C118_groth16_shift, hv]

example : ¬ C118_statement fun (vk : Groth16.VerifyKey (ZMod 17) (ZMod 17)) (p : Groth16.Proof (ZMod 17) (ZMod 17))
    (xs : List (ZMod 17)) => GoodKey e vk ∧ Groth16.verifyProof e (Groth16.prepareVerifyingKey e vk) p xs = .ok true := by
  obtain ⟨vk, p, hk, hv, -⟩ := exProof
  exact C118_violated_groth16 e ⟨vk, p, [9], hk, hv⟩ ⟨1, by decide⟩

/-- The third point of the accepted proof cannot be changed alone. -/
example : ∃ vk : Groth16.VerifyKey (ZMod 17) (ZMod 17), ∃ p,
    Groth16.verifyProof e (Groth16.prepareVerifyingKey e vk) p [9] = .ok true ∧
    ∀ c, c ≠ p.c → Groth16.verifyProof e (Groth16.prepareVerifyingKey e vk) ⟨p.a, p.b, c⟩ [9] ≠ .ok true := by
  obtain ⟨vk, p, hk, hv, -⟩ := exProof
  exact ⟨vk, p, hv, fun c hc h => hc ((C118_groth16_partial e vk ⟨p.a, p.b, c⟩ p [9] h hv).1 hk rfl rfl)⟩

end Groth16Ex

/-! ### Marlin and Plonk -/

namespace Marlin

/-- Vectors of commitments after the third are neither read nor absorbed. -/
theorem C118_marlin_ignored [DecidableEq GT] (mk : Nat → Option (Domain F)) (rng : FsRng F G1 G2) (e : G1 →ₗ[F] G2 →ₗ[F] GT)
    (ivk : IndexVerifierKey F G1 G2) (p : Proof F G1) (xs : List F) (h : 3 ≤ p.commitments.length)
    (more : List (List (Kzg.Commitment G1))) :
    verify mk rng e ivk { p with commitments := p.commitments ++ more } xs = verify mk rng e ivk p xs := by
  obtain ⟨cs, es, os⟩ := p
  match cs, h with
  | c1 :: c2 :: c3 :: rest, _ => rfl

/-- C118 is violated by Marlin: every accepted proof is accepted with another, empty vector of commitments as well. -/
theorem C118_violated_marlin [DecidableEq GT] (mk : Nat → Option (Domain F)) (rng : FsRng F G1 G2) (e : G1 →ₗ[F] G2 →ₗ[F] GT)
    (hex : ∃ ivk p xs, verify mk rng e ivk p xs = .ok true) :
    ¬ C118_statement fun (ivk : IndexVerifierKey F G1 G2) (p : Proof F G1) (xs : List F) =>
      verify mk rng e ivk p xs = .ok true := by
  intro h
  refine h hex ⟨fun _ p => { p with commitments := p.commitments ++ [[]] }, fun ivk p xs hv => ⟨?_, fun he => ?_⟩⟩
  · refine (C118_marlin_ignored mk rng e ivk p xs ?_ [[]]).trans hv
    by_contra hl
    obtain ⟨cs, es, os⟩ := p
    match cs, hl, hv with
    | [], _, hv => cases hv
    | [_], _, hv => cases hv
    | [_, _], _, hv => cases hv
    | _ :: _ :: _ :: _, hl, _ => exact hl (by simp)
  · have := congrArg (fun q => q.commitments.length) he
    simp at this

/-- The points in the openings that pass the checks of all groups. -/
theorem openings_unique [DecidableEq GT] (e : G1 →ₗ[F] G2 →ₗ[F] GT) (vk : Kzg.VerifierKey G1 G2) (β : F)
    (hβ : vk.beta_h = β • vk.h) (hnd : ∀ w, e w vk.h = 0 → w = 0) (gs : List (F × List String)) :
    ∀ (ps qs : List (Kzg.Proof F G1)) (cs : List (Kzg.LabeledCommitment G1))
      (ev : String → F → Option F) (ξ : F) (bs bs' : List Bool), (∀ g ∈ gs, g.1 ≠ β) → gs.length = ps.length →
      gs.length = qs.length → ps.map (·.rand_v) = qs.map (·.rand_v) →
      (gs.zip ps).mapM (Kzg.checkGroup e vk cs ev ξ) = .ok bs → bs.all id = true →
      (gs.zip qs).mapM (Kzg.checkGroup e vk cs ev ξ) = .ok bs' → bs'.all id = true → ps = qs := by
  induction gs with
  | nil =>
    intro ps qs cs ev ξ bs bs' _ hl hl' _ _ _ _ _
    rw [List.eq_nil_of_length_eq_zero hl.symm, List.eq_nil_of_length_eq_zero hl'.symm]
  | cons g gs ih =>
    intro ps qs cs ev ξ bs bs' hne hl hl' hr hm hall hm' hall'
    match ps, qs, hl, hl' with
    | a :: ps, b :: qs, hl, hl' =>
      rw [List.zip_cons_cons, List.mapM_cons] at hm hm'
      obtain ⟨x, hx, hm⟩ := Kzg.bind_ok hm
      obtain ⟨xs, hxs, hm⟩ := Kzg.bind_ok hm
      obtain ⟨y, hy, hm'⟩ := Kzg.bind_ok hm'
      obtain ⟨ys, hys, hm'⟩ := Kzg.bind_ok hm'
      obtain rfl := Except.ok.inj hm
      obtain rfl := Except.ok.inj hm'
      rw [List.all_cons, Bool.and_eq_true] at hall hall'
      obtain ⟨ha, hr⟩ := List.cons.inj hr
      rw [ih ps qs cs ev ξ xs ys (fun g h => hne g (List.mem_cons_of_mem _ h)) (by simpa using hl) (by simpa using hl')
        hr hxs hall.2 hys hall'.2]
      congr 1
      unfold Kzg.checkGroup at hx hy
      obtain ⟨sel, hsel, hx⟩ := Kzg.bind_ok hx
      obtain ⟨sel', hsel', hy⟩ := Kzg.bind_ok hy
      simp only at hsel hsel'
      rw [hsel] at hsel'
      obtain rfl := Except.ok.inj hsel'
      unfold Kzg.pcCheck at hx hy
      obtain ⟨acc, hacc, hx⟩ := Kzg.bind_ok hx
      obtain ⟨acc', hacc', hy⟩ := Kzg.bind_ok hy
      simp only at hacc hacc'
      rw [hacc] at hacc'
      obtain rfl := Except.ok.inj hacc'
      have hx := (Except.ok.inj hx).trans hall.1
      have hy := (Except.ok.inj hy).trans hall'.1
      unfold Kzg.check at hx hy
      have hx := of_decide_eq_true hx
      have hy := of_decide_eq_true hy
      have hlhs : Kzg.checkLhs vk acc.1 acc.2.1 a = Kzg.checkLhs vk acc.1 acc.2.1 b := by
        have ha : a.rand_v = b.rand_v := ha
        unfold Kzg.checkLhs
        rw [ha]
      simp only at hx hy
      rw [hlhs, hy, hβ, ← sub_smul, map_smul, map_smul] at hx
      have hz : β - g.1 ≠ 0 := sub_ne_zero.mpr (hne g (by simp)).symm
      have hw := smul_right_injective _ hz hx
      have hw : b.w = a.w := by
        rw [← sub_eq_zero]
        apply hnd
        rw [map_sub, LinearMap.sub_apply, sub_eq_zero]
        exact hw
      cases a
      cases b
      simp_all

/-- What holds for Marlin: the points in the openings are determined by the rest of the proof, if the challenges are not the secret
`β` of the setup. -/
theorem C118_marlin_partial [DecidableEq GT] (mk : Nat → Option (Domain F)) (rng : FsRng F G1 G2) (e : G1 →ₗ[F] G2 →ₗ[F] GT)
    (ivk : IndexVerifierKey F G1 G2) (β : F) (hβ : ivk.verifier_key.beta_h = β • ivk.verifier_key.h)
    (hnd : ∀ w, e w ivk.verifier_key.h = 0 → w = 0) (p q : Proof F G1) (xs : List F) {c1 c2 c3 : List (Kzg.Commitment G1)}
    (hpc : p.commitments = [c1, c2, c3]) (hqc : q.commitments = [c1, c2, c3]) (hev : p.evaluations = q.evaluations)
    (hrv : p.opening_proofs.map (·.rand_v) = q.opening_proofs.map (·.rand_v))
    (hs : ∀ s, challenges mk rng ivk xs c1 c2 c3 = .ok s → s.beta ≠ β ∧ s.gamma ≠ β)
    (hp : verify mk rng e ivk p xs = .ok true) (hq : verify mk rng e ivk q xs = .ok true) : p = q := by
  have key : ∀ p : Proof F G1, p.commitments = [c1, c2, c3] → verify mk rng e ivk p xs = .ok true → ∃ s bounds,
      challenges mk rng ivk xs c1 c2 c3 = .ok s ∧ degreeBounds mk ivk.info = .ok bounds ∧
      Kzg.batchCheck e ivk.verifier_key (labelCommitments ivk c1 c2 c3 bounds) (querySet s)
        (evalMap (querySet s) p.evaluations) p.opening_proofs
        (rng.opening [.seed ivk xs, .comms c1, .comms c2, .comms c3, .evals p.evaluations]) = .ok true := by
    intro p hc hv
    unfold verify at hv
    rw [hc] at hv
    obtain ⟨s, hs, hv⟩ := Kzg.bind_ok hv
    obtain ⟨bounds, hb, hv⟩ := Kzg.bind_ok hv
    obtain ⟨ok, hok, hv⟩ := Kzg.bind_ok hv
    refine ⟨s, bounds, hs, hb, ?_⟩
    split at hv
    · exact liftPc_ok hv
    · cases hv
  obtain ⟨s, bounds, h1, h2, h3⟩ := key p hpc hp
  obtain ⟨s', bounds', h1', h2', h3'⟩ := key q hqc hq
  rw [h1] at h1'
  cases h1'
  rw [h2] at h2'
  cases h2'
  rw [← hev] at h3'
  obtain ⟨hb, hg⟩ := hs s h1
  have hpts : ∀ g ∈ Kzg.groups (querySet s), g.1 ≠ β := by
    intro g hgm
    unfold Kzg.groups at hgm
    obtain ⟨z, hz, rfl⟩ := List.mem_map.mp hgm
    rw [List.mem_dedup] at hz
    simp only [querySet, List.map_cons, List.map_nil, List.mem_cons, List.not_mem_nil, or_false] at hz
    rintro rfl
    rcases hz with h | h | h | h | h | h | h | h | h | h | h | h | h | h | h | h | h | h | h | h | h <;>
      first | exact hb h.symm | exact hg h.symm
  unfold Kzg.batchCheck at h3 h3'
  split at h3
  · cases h3
  · split at h3'
    · cases h3'
    · rename_i hl hl'
      obtain ⟨bs, hm, hall⟩ := Kzg.bind_ok h3
      obtain ⟨bs', hm', hall'⟩ := Kzg.bind_ok h3'
      have := openings_unique e ivk.verifier_key β hβ hnd _ _ _ _ _ _ bs bs' hpts (not_not.mp hl) (not_not.mp hl') hrv hm (Except.ok.inj hall) hm'
        (Except.ok.inj hall')
      cases p
      cases q
      simp_all

open Ex97 in
/-- An accepted Marlin proof, for the trapdoor 3 and the challenges 17 and 19. -/
theorem mallCase97 (e : F97 →ₗ[F97] F97 →ₗ[F97] F97) : ∃ ivk proof c1 c2 c3, ivk.verifier_key.beta_h = (3 : F97) • ivk.verifier_key.h ∧
    ivk.verifier_key.h = 1 ∧ proof.commitments = [c1, c2, c3] ∧ verify mk97 rng97 e ivk proof [6] = .ok true := by
  obtain ⟨ipk, ivk, proof, hi, hp⟩ := prove97 true 3 1 2 1
  obtain ⟨H, K, deg, key⟩ := index_ok mk97_ok hi
  have hc : ∃ c1 c2 c3, proof.commitments = [c1, c2, c3] := by
    unfold prove at hp
    obtain ⟨_, -, hp⟩ := Kzg.bind_ok hp
    obtain ⟨_, -, hp⟩ := Kzg.bind_ok hp
    obtain ⟨_, -, hp⟩ := Kzg.bind_ok hp
    obtain ⟨_, -, hp⟩ := Kzg.bind_ok hp
    obtain ⟨_, -, hp⟩ := Kzg.bind_ok hp
    obtain ⟨_, -, hp⟩ := Kzg.bind_ok hp
    obtain ⟨_, -, hp⟩ := Kzg.bind_ok hp
    obtain ⟨_, -, hp⟩ := Kzg.bind_ok hp
    obtain ⟨_, -, hp⟩ := Kzg.bind_ok hp
    unfold finish at hp
    obtain ⟨_, -, hp⟩ := Kzg.bind_ok hp
    obtain ⟨_, -, hp⟩ := Kzg.bind_ok hp
    obtain rfl := Except.ok.inj hp
    exact ⟨_, _, _, rfl⟩
  obtain ⟨c1, c2, c3, hc⟩ := hc
  refine ⟨ivk, proof, c1, c2, c3, by rw [key.hvk], by rw [key.hvk], hc,
    C83_partial mk97_ok rng97 e hi rfl rfl cs97_valid rfl ⟨1, rfl⟩ ?_ ?_ ?_ hp⟩
  · change (1 : F97) ≠ 0
    decide
  · change (1 : F97) ≠ 0
    decide
  · intro l
    constructor <;> · change (X : F97[X]).natDegree ≤ 1; rw [natDegree_X]

open Ex97 in
example : ¬ C118_statement fun (ivk : IndexVerifierKey F97 F97 F97) (p : Proof F97 F97) (xs : List F97) =>
    verify mk97 rng97 (LinearMap.mul F97 F97) ivk p xs = .ok true := by
  obtain ⟨ivk, p, _, _, _, -, -, -, hv⟩ := mallCase97 (LinearMap.mul F97 F97)
  exact C118_violated_marlin mk97 rng97 _ ⟨ivk, p, [6], hv⟩

open Ex97 in
/-- The points of the openings of that proof cannot be changed. -/
example : ∃ (ivk : IndexVerifierKey F97 F97 F97) (p : Proof F97 F97),
    verify mk97 rng97 (LinearMap.mul F97 F97) ivk p [6] = .ok true ∧
    ∀ os : List (Kzg.Proof F97 F97), os ≠ p.opening_proofs → os.map (·.rand_v) = p.opening_proofs.map (·.rand_v) →
      verify mk97 rng97 (LinearMap.mul F97 F97) ivk { p with opening_proofs := os } [6] ≠ .ok true := by
  obtain ⟨ivk, p, c1, c2, c3, hβ, hh, hc, hv⟩ := mallCase97 (LinearMap.mul F97 F97)
  refine ⟨ivk, p, hv, fun os hne hr h => hne ?_⟩
  refine congrArg Proof.opening_proofs (C118_marlin_partial mk97 rng97 _ ivk 3 hβ ?_ { p with opening_proofs := os } p [6]
    (c1 := c1) (c2 := c2) (c3 := c3) hc hc rfl hr ?_ h hv)
  · intro w hw
    rw [hh] at hw
    simpa using hw
  · intro s hs
    unfold challenges at hs
    dsimp only at hs
    split at hs
    · cases hs
    obtain ⟨H, -, hs⟩ := Kzg.bind_ok hs
    obtain ⟨K, -, hs⟩ := Kzg.bind_ok hs
    split at hs
    · cases hs
    split at hs
    · cases hs
    rename_i β k hsam
    obtain rfl := Except.ok.inj hs
    refine ⟨?_, by change (19 : F97) ≠ 3; decide⟩
    intro hb
    have : β = 17 := by
      unfold sampleOutside at hsam
      split at hsam
      · exact (congrArg Prod.fst (Option.some.inj hsam)).symm
      · cases hsam
    exact absurd (this.symm.trans hb) (by decide)

end Marlin

namespace Plonk

/-- Vectors of commitments after the third are neither read nor absorbed. -/
theorem C118_plonk_ignored (pc : PC F) (rng : FsRng F pc.Comm) (vk : VerifierKey F pc) (p : Proof F pc) (xs : List F)
    (h : 3 ≤ p.commitments.length) (more : List (List pc.Comm)) :
    verify pc rng vk xs { p with commitments := p.commitments ++ more } = verify pc rng vk xs p := by
  obtain ⟨cs, es, os⟩ := p
  match cs, h with
  | c1 :: c2 :: c3 :: rest, _ => rfl

/-- C118 is violated by Plonk: every accepted proof is accepted with another, empty vector of commitments as well. -/
theorem C118_violated_plonk (pc : PC F) (rng : FsRng F pc.Comm) (hex : ∃ vk p xs, verify pc rng vk xs p = .ok true) :
    ¬ C118_statement fun (vk : VerifierKey F pc) (p : Proof F pc) (xs : List F) => verify pc rng vk xs p = .ok true := by
  intro h
  refine h hex ⟨fun _ p => { p with commitments := p.commitments ++ [[]] }, fun vk p xs hv => ⟨?_, fun he => ?_⟩⟩
  · refine (C118_plonk_ignored pc rng vk p xs ?_ [[]]).trans hv
    by_contra hl
    obtain ⟨cs, es, os⟩ := p
    match cs, hl, hv with
    | [], _, hv => cases hv
    | [_], _, hv => cases hv
    | [_, _], _, hv => cases hv
    | _ :: _ :: _ :: _, hl, _ => exact hl (by simp)
  · have := congrArg (fun q => q.commitments.length) he
    simp at this

open Ex17 in
example : ¬ C118_statement fun (vk : VerifierKey F17 idealPc) (p : Proof F17 idealPc) (xs : List F17) =>
    verify idealPc exRng vk xs p = .ok true := by
  obtain ⟨c, pk, vk, pf, -, -, -, -, hv⟩ := good_case
  exact C118_violated_plonk idealPc exRng ⟨vk, pf, c.pi, hv⟩

end Plonk

end Zkp
