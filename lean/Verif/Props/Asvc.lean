/- Properties C61-C64 and C74: the aggregatable vector commitment. -/
import Verif.Proof.Asvc
import Verif.Proof.F17Domain

set_option linter.unusedSectionVars false
set_option linter.unusedSimpArgs false

namespace Zkp

open Polynomial Asvc

variable {F : Type} [Field F] [DecidableEq F]
variable {G1 G2 GT : Type} [AddCommGroup G1] [AddCommGroup G2] [AddCommGroup GT]
  [Module F G1] [Module F G2] [Module F GT] [DecidableEq GT]

/-! ### C61: opened positions verify -/

/-- C61.  For every vector of at least one and at most `D.size` values, every list of distinct positions
and every trapdoor that is not a domain point, key generation, commitment and opening succeed and the
verifier accepts the opening with the true values (positions behind the end of the vector hold 0).
`mk` is `EvaluationDomain::new`; asking it for the size of a domain it made gives that domain. -/
theorem C61_complete (e : G1 →ₗ[F] G2 →ₗ[F] GT) (mk : Nat → Option (Domain F)) (n : Nat)
    (D : Domain F) (hm : mk n = some D) (hm' : mk D.size = some D) (hv : D.Valid) (τ : F) (g1 : G1)
    (g2 : G2) (hτ : ∀ i < D.size, τ ≠ D.ω ^ i) (values : List F) (h1 : 1 ≤ values.length)
    (h2 : values.length ≤ D.size) (points : List Nat) (hd : points.Nodup)
    (hp : ∀ i ∈ points, i < D.size) :
    ∃ P c w, keyGen mk n τ g1 g2 = .ok P ∧ commit P.pk values = .ok c ∧
      provePos mk P.pk values points = .ok w ∧
      verifyPos e P.vk c (points.map fun i => values.getD i 0) points w D.ω = .ok true := by
  obtain ⟨P, hP⟩ := keyGen_succeeds (G1 := G1) (G2 := G2) g1 g2 hm hv hτ
  obtain ⟨D', hD', hne, e1, e2, e3, e4, e5, e6⟩ := keyGen_ok hP
  rw [hm] at hD'; injection hD' with hD'; subst hD'
  have hc : commit P.pk values = .ok ((polyOf (D.ifft values)).eval τ • g1) := by
    unfold commit
    rw [if_neg (by omega), if_neg (by rw [e4]; simp; omega), e4, msm_keyLi hv hne g1 values h2]
  refine ⟨P, _, _, hP, hc, provePos_eq hv hm' e1 values points hd, ?_⟩
  rw [verifyPos_eq e hv e2 e3 points hd hp, interpolate_congr_values]
  congr 1
  rw [decide_eq_true_eq, ← sub_smul, quotient hv points hd hp values τ]
  simp only [map_smul, LinearMap.smul_apply, smul_smul]

example := C61_complete Ex17.e Ex17.mk 3 Ex17.D4 rfl rfl Ex17.d4_valid 5 1 1 Ex17.five_not_root
  [7, 0, 9] (by decide) (by decide) [2, 0, 3] (by decide) (by decide)

/-- Key generation aborts exactly when the trapdoor is a domain point. -/
theorem C61_keys (mk : Nat → Option (Domain F)) (n : Nat) (D : Domain F) (hm : mk n = some D)
    (hv : D.Valid) (τ : F) (g1 : G1) (g2 : G2) :
    (∃ P, keyGen mk n τ g1 g2 = .ok P) ↔ ∀ i < D.size, τ ≠ D.ω ^ i := by
  constructor
  · rintro ⟨P, hP⟩ i hi
    obtain ⟨D', hD', hne, _⟩ := keyGen_ok hP
    rw [hm] at hD'; injection hD' with hD'; subst hD'
    exact sub_ne_zero.mp (hne i hi)
  · exact keyGen_succeeds g1 g2 hm hv

example := C61_keys Ex17.mk 3 Ex17.D4 rfl Ex17.d4_valid 5 (1 : F17) (1 : F17)

/-! ### C62: updates -/

theorem polyOf_ifft_set {D : Domain F} (hv : D.Valid) (values : List F) {j : Nat}
    (hj : j < values.length) (hjn : j < D.size) (δ τ : F) :
    (polyOf (D.ifft (values.set j (values.getD j 0 + δ)))).eval τ =
      (polyOf (D.ifft values)).eval τ + δ * (D.lagrange τ).getD j 0 := by
  rw [Domain.eval_ifft, Domain.eval_ifft]
  rw [← Finset.add_sum_erase _ _ (Finset.mem_range.mpr hjn),
    ← Finset.add_sum_erase (Finset.range D.size) (fun i => values.getD i 0 * _)
      (Finset.mem_range.mpr hjn)]
  have h1 : (values.set j (values.getD j 0 + δ)).getD j 0 = values.getD j 0 + δ := by
    rw [List.getD_eq_getElem _ _ (by simpa using hj)]; simp
  have h2 : ∑ i ∈ (Finset.range D.size).erase j,
      (values.set j (values.getD j 0 + δ)).getD i 0 * (D.lagrange τ).getD i 0 =
      ∑ i ∈ (Finset.range D.size).erase j, values.getD i 0 * (D.lagrange τ).getD i 0 := by
    apply Finset.sum_congr rfl
    intro i hi
    have hne : j ≠ i := (Finset.ne_of_mem_erase hi).symm
    congr 1
    simp only [List.getD_eq_getElem?_getD, List.getElem?_set_ne hne]
  rw [h2, h1]
  ring

/-- The single-position witness in closed form. -/
theorem single_witness {D : Domain F} (hv : D.Valid) {τ : F} (values : List F) {i : Nat}
    (hi : i < D.size) (hτ : τ - D.ω ^ i ≠ 0) :
    (polyOf (D.ifft values) / aPoly D.ω [i]).eval τ =
      (1 / (τ - D.ω ^ i)) * ((polyOf (D.ifft values)).eval τ - values.getD i 0) := by
  have h := quotient hv [i] (by simp) (by simpa using hi) values τ
  have hA : (aPoly D.ω [i]).eval τ = τ - D.ω ^ i := by simp [aPoly, lin]
  rw [hA] at h
  have hI : (Lagrange.interpolate [i].toFinset (nodes D.ω) fun i => values.getD i 0).eval τ =
      values.getD i 0 := by
    rw [show [i].toFinset = {i} by rfl, Lagrange.interpolate_singleton, eval_C]
  rw [hI] at h
  rw [h]; field_simp

/-- C62, commitments: the updated commitment is the commitment to the changed vector. -/
theorem C62_commit (mk : Nat → Option (Domain F)) (n : Nat) (D : Domain F) (hm : mk n = some D)
    (hv : D.Valid) (τ : F) (g1 : G1) (g2 : G2) (P : Parameters G1 G2)
    (hP : keyGen mk n τ g1 g2 = .ok P) (values : List F) (c : G1)
    (hc : commit P.pk values = .ok c) (j : Nat) (hj : j < values.length) (upk : UpdateKey G1)
    (hu : P.pk.update_keys[j]? = some upk) (δ : F) :
    updateCommit c δ j upk D.ω D.size = commit P.pk (values.set j (values.getD j 0 + δ)) ∧
    ∃ c', commit P.pk (values.set j (values.getD j 0 + δ)) = .ok c' := by
  obtain ⟨D', hD', hne, e1, e2, e3, e4, e5, e6⟩ := keyGen_ok hP
  rw [hm] at hD'; injection hD' with hD'; subst hD'
  have hlen : 1 ≤ values.length ∧ values.length ≤ D.size := by
    unfold commit at hc
    split at hc
    · simp at hc
    · split at hc
      · simp at hc
      · rename_i h; rw [e4] at h; simp at h; omega
  have hjn : j < D.size := by omega
  have hu' : upk = ⟨keyAi τ D g1 j, keyUi τ D g1 j⟩ := by
    rw [e5] at hu; simp [hjn] at hu; exact hu.symm
  subst hu'
  have hcv : ∀ v : List F, 1 ≤ v.length → v.length ≤ D.size →
      commit P.pk v = .ok ((polyOf (D.ifft v)).eval τ • g1) := by
    intro v h1 h2
    unfold commit
    rw [if_neg (by omega), if_neg (by rw [e4]; simp; omega), e4, msm_keyLi hv hne g1 v h2]
  rw [hcv _ hlen.1 hlen.2] at hc
  injection hc with hc
  subst hc
  have hset := hcv (values.set j (values.getD j 0 + δ)) (by simpa using hlen.1) (by simpa using hlen.2)
  refine ⟨?_, _, hset⟩
  rw [hset]
  unfold updateCommit
  rw [if_neg hv.size_ne, polyOf_ifft_set hv values hj hjn]
  have := keyLi_eq hv hjn (hne j hjn) g1
  unfold keyLi at this
  dsimp only
  rw [this]
  congr 1
  module

example := C62_commit Ex17.mk 3 Ex17.D4 rfl Ex17.d4_valid 5 (1 : F17) (1 : F17) _ rfl [7, 0, 9] _ rfl 2
  (by decide) _ rfl 4

/-- C62, proofs: the updated proof of position `i` (any position, the changed one included) is the proof
that opening `i` in the changed vector gives; by C61 it is accepted. -/
theorem C62_proof (mk : Nat → Option (Domain F)) (n : Nat) (D : Domain F) (hm : mk n = some D)
    (hm' : mk D.size = some D) (hv : D.Valid) (τ : F) (g1 : G1) (g2 : G2) (P : Parameters G1 G2)
    (hP : keyGen mk n τ g1 g2 = .ok P) (values : List F) (hl : values.length ≤ D.size) (i j : Nat)
    (hi : i < D.size) (hj : j < values.length) (upki upkj : UpdateKey G1)
    (hui : P.pk.update_keys[i]? = some upki) (huj : P.pk.update_keys[j]? = some upkj) (w : G1)
    (hw : provePos mk P.pk values [i] = .ok w) (δ : F) :
    updateProof w δ i j upki upkj D.ω D.size =
      provePos mk P.pk (values.set j (values.getD j 0 + δ)) [i] := by
  obtain ⟨D', hD', hne, e1, e2, e3, e4, e5, e6⟩ := keyGen_ok hP
  rw [hm] at hD'; injection hD' with hD'; subst hD'
  have hjn : j < D.size := by omega
  have hui' : upki = ⟨keyAi τ D g1 i, keyUi τ D g1 i⟩ := by
    rw [e5] at hui; simp [hi] at hui; exact hui.symm
  have huj' : upkj = ⟨keyAi τ D g1 j, keyUi τ D g1 j⟩ := by
    rw [e5] at huj; simp [hjn] at huj; exact huj.symm
  subst hui' huj'
  rw [provePos_eq hv hm' e1 _ _ (by simp), single_witness hv _ hi (hne i hi)] at hw
  injection hw with hw
  rw [provePos_eq hv hm' e1 _ _ (by simp), single_witness hv _ hi (hne i hi), ← hw,
    polyOf_ifft_set hv values hj hjn]
  unfold updateProof
  by_cases hij : i = j
  · subst hij
    rw [if_pos rfl]
    have h1 : (values.set i (values.getD i 0 + δ)).getD i 0 = values.getD i 0 + δ := by
      rw [List.getD_eq_getElem _ _ (by simpa using hj)]; simp
    rw [h1]
    dsimp only
    unfold keyUi
    rw [keyLi_eq hv hi (hne i hi)]
    congr 1
    module
  · rw [if_neg hij]
    have hd : D.ω ^ j - D.ω ^ i ≠ 0 := by
      intro h0
      exact hij (hv.inj hjn hi (sub_eq_zero.mp h0)).symm
    rw [if_neg (by push Not; exact ⟨hd, hv.size_ne⟩)]
    have h1 : (values.set j (values.getD j 0 + δ)).getD i 0 = values.getD i 0 := by
      simp only [List.getD_eq_getElem?_getD, List.getElem?_set_ne (Ne.symm hij)]
    rw [h1, lagrange_closed hv hjn (hne j hjn)]
    dsimp only
    unfold keyAi keyA
    have hi0 := hne i hi
    have hj0 := hne j hjn
    have hs := hv.size_ne
    have hd' : D.ω ^ i - D.ω ^ j ≠ 0 := by
      intro h0; apply hd; rw [← neg_sub, h0, neg_zero]
    have key : 1 / (D.ω ^ j - D.ω ^ i) * (1 / (τ - D.ω ^ j)) + 1 / (D.ω ^ i - D.ω ^ j) * (1 / (τ - D.ω ^ i))
        = 1 / (τ - D.ω ^ i) * (1 / (τ - D.ω ^ j)) := by
      rw [show D.ω ^ i - D.ω ^ j = -(D.ω ^ j - D.ω ^ i) by ring]
      field_simp
      ring
    congr 1
    simp only [smul_smul, smul_add, ← add_smul, ← smul_sub]
    have : τ ^ D.size • g1 - g1 = (τ ^ D.size - 1) • g1 := by module
    rw [this]
    simp only [smul_smul, ← add_smul]
    congr 1
    linear_combination (δ * (D.ω ^ j / D.size) * (τ ^ D.size - 1)) * key

example := C62_proof Ex17.mk 3 Ex17.D4 rfl rfl Ex17.d4_valid 5 (1 : F17) (1 : F17) _ rfl [7, 0, 9]
  (by decide) 3 2 (by decide) (by decide) _ _ rfl rfl _ rfl 4

/-- C62: the updated proof of any position is accepted for the changed vector. -/
theorem C62_accepted (e : G1 →ₗ[F] G2 →ₗ[F] GT) (mk : Nat → Option (Domain F)) (n : Nat)
    (D : Domain F) (hm : mk n = some D) (hm' : mk D.size = some D) (hv : D.Valid) (τ : F) (g1 : G1)
    (g2 : G2) (P : Parameters G1 G2) (hP : keyGen mk n τ g1 g2 = .ok P) (values : List F) (c : G1)
    (hc : commit P.pk values = .ok c) (i j : Nat) (hi : i < D.size) (hj : j < values.length)
    (upki upkj : UpdateKey G1) (hui : P.pk.update_keys[i]? = some upki)
    (huj : P.pk.update_keys[j]? = some upkj) (w : G1) (hw : provePos mk P.pk values [i] = .ok w)
    (δ : F) :
    ∃ c' w', updateCommit c δ j upkj D.ω D.size = .ok c' ∧
      updateProof w δ i j upki upkj D.ω D.size = .ok w' ∧
      verifyPos e P.vk c' [(values.set j (values.getD j 0 + δ)).getD i 0] [i] w' D.ω = .ok true := by
  obtain ⟨hcc, c', hc'⟩ := C62_commit mk n D hm hv τ g1 g2 P hP values c hc j hj upkj huj δ
  have hlen : 1 ≤ values.length ∧ values.length ≤ D.size := by
    obtain ⟨D', hD', hne, e1, e2, e3, e4, e5, e6⟩ := keyGen_ok hP
    rw [hm] at hD'; injection hD' with hD'; subst hD'
    unfold commit at hc
    split at hc
    · simp at hc
    · split at hc
      · simp at hc
      · rename_i h; rw [e4] at h; simp at h; omega
  have hpp := C62_proof mk n D hm hm' hv τ g1 g2 P hP values hlen.2 i j hi hj upki upkj hui huj w hw δ
  have hτ : ∀ i < D.size, τ ≠ D.ω ^ i := (C61_keys mk n D hm hv τ g1 g2).mp ⟨P, hP⟩
  obtain ⟨P', c'', w', hP', hc'', hw', hver⟩ := C61_complete e mk n D hm hm' hv τ g1 g2 hτ
    (values.set j (values.getD j 0 + δ)) (by simpa using hlen.1) (by simpa using hlen.2) [i] (by simp)
    (by simpa using hi)
  rw [hP] at hP'; injection hP' with hP'; subst hP'
  exact ⟨c'', w', by rw [hcc, hc''], by rw [hpp, hw'], by simpa using hver⟩

example := C62_accepted Ex17.e Ex17.mk 3 Ex17.D4 rfl rfl Ex17.d4_valid 5 (1 : F17) (1 : F17) _ rfl
  [7, 0, 9] _ rfl 3 2 (by decide) (by decide) _ _ rfl rfl _ rfl 4

/-- C62, update keys: with a pairing that separates points against the generator, `verify_upk` accepts
for a position exactly the update key that key generation made. -/
theorem C62_upk (e : G1 →ₗ[F] G2 →ₗ[F] GT) (mk : Nat → Option (Domain F)) (n : Nat)
    (D : Domain F) (hm : mk n = some D) (hv : D.Valid) (τ : F) (g1 : G1) (g2 : G2)
    (P : Parameters G1 G2) (hP : keyGen mk n τ g1 g2 = .ok P)
    (hnd : ∀ a : G1, e a g2 = 0 → a = 0) (i : Nat) (hi : i < D.size) (upk : UpdateKey G1) :
    (∃ b, verifyUpk e P.vk i upk D.ω = .ok b) ∧
    (verifyUpk e P.vk i upk D.ω = .ok true ↔ P.pk.update_keys[i]? = some upk) := by
  obtain ⟨D', hD', hne, e1, e2, e3, e4, e5, e6⟩ := keyGen_ok hP
  rw [hm] at hD'; injection hD' with hD'; subst hD'
  have hs := hv.size_ne
  have hg1 : P.vk.powers_of_g1 = g1 :: (List.range D.size).map (fun i => τ ^ (i + 1) • g1) := by
    rw [e2, List.range_succ_eq_map]; simp [Function.comp_def]
  have hg2 : P.vk.powers_of_g2 =
      g2 :: τ • g2 :: (List.range (D.size - 1)).map (fun i => τ ^ (i + 2) • g2) := by
    obtain ⟨m, hm⟩ : ∃ m, D.size = m + 1 := ⟨D.size - 1, by have := hv.pos; omega⟩
    rw [e3, hm, List.range_succ_eq_map, List.range_succ_eq_map]
    simp [Function.comp_def]
  have hlen : P.vk.powers_of_g1.length - 1 = D.size := by rw [e2]; simp
  have hV : verifyUpk e P.vk i upk D.ω = .ok
      (decide (e upk.ai (τ • g2 - D.ω ^ i • g2) = e P.vk.a g2) &&
       decide (e ((D.ω ^ i / (D.size : F)) • upk.ai - g1) g2 = e upk.ui (τ • g2 - D.ω ^ i • g2))) := by
    unfold verifyUpk
    rw [hg2]
    rw [hg1] at hlen ⊢
    dsimp only
    rw [hlen, if_neg hs]
  have hi0 := hne i hi
  have hsep : ∀ a b : G1, e a g2 = e b g2 ↔ a = b := by
    intro a b
    constructor
    · intro h
      apply sub_eq_zero.mp
      apply hnd
      rw [map_sub, LinearMap.sub_apply, h, sub_self]
    · rintro rfl; rfl
  have hpush : ∀ a : G1, e a (τ • g2 - D.ω ^ i • g2) = e ((τ - D.ω ^ i) • a) g2 := by
    intro a
    rw [← sub_smul]; simp
  refine ⟨⟨_, hV⟩, ?_⟩
  rw [hV, e6, e5]
  have hK : ((List.range D.size).map
      (fun i => (⟨keyAi τ D g1 i, keyUi τ D g1 i⟩ : UpdateKey G1)))[i]? =
      some ⟨keyAi τ D g1 i, keyUi τ D g1 i⟩ := by simp [hi]
  rw [hK]
  have hsolve : ∀ a b : G1, (τ - D.ω ^ i) • a = b ↔ (1 / (τ - D.ω ^ i)) • b = a := by
    intro a b
    constructor
    · rintro rfl; rw [smul_smul, one_div_mul_cancel hi0, one_smul]
    · rintro rfl; rw [smul_smul, mul_one_div_cancel hi0, one_smul]
  simp only [Except.ok.injEq, Bool.and_eq_true, decide_eq_true_eq, Option.some.injEq, hpush, hsep]
  obtain ⟨ai, ui⟩ := upk
  simp only [UpdateKey.mk.injEq]
  rw [hsolve, eq_comm (a := (D.ω ^ i / (D.size : F)) • ai - g1), hsolve]
  constructor
  · rintro ⟨h1, h2⟩
    refine ⟨h1, ?_⟩
    rw [← h2, ← h1]; rfl
  · rintro ⟨h1, h2⟩
    refine ⟨h1, ?_⟩
    rw [← h2, ← h1]; rfl

example := C62_upk Ex17.e Ex17.mk 3 Ex17.D4 rfl Ex17.d4_valid 5 (1 : F17) (1 : F17) _ rfl
  (by intro a h; simpa [Ex17.e] using h) 2 (by decide)

/-! ### C63: aggregation -/

theorem aggFold (ω : F) (a : F[X]) (l : List (Nat × G1)) (r : G1)
    (h : ∀ pv ∈ l, (a / lin ω pv.1).eval (ω ^ pv.1) ≠ 0) :
    l.foldlM (aggStep ω a) r =
      .ok (r + (l.map fun pv => ((a / lin ω pv.1).eval (ω ^ pv.1))⁻¹ • pv.2).sum) := by
  induction l generalizing r with
  | nil => simp; rfl
  | cons x l ih =>
    rw [List.foldlM_cons]
    have : aggStep ω a r x = .ok (r + ((a / lin ω x.1).eval (ω ^ x.1))⁻¹ • x.2) := by
      unfold aggStep
      simp only [h x (by simp), if_false, one_div]
    rw [this]
    show l.foldlM (aggStep ω a) _ = _
    rw [ih _ (fun pv hpv => h pv (by simp [hpv]))]
    simp [add_assoc]

/-- C63.  Aggregating the single-position proofs of distinct positions (at least one) gives exactly the
proof that opening the positions together gives. -/
theorem C63_aggregate (mk : Nat → Option (Domain F)) (n : Nat) (D : Domain F) (hm : mk n = some D)
    (hm' : mk D.size = some D) (hv : D.Valid) (τ : F) (g1 : G1) (g2 : G2) (P : Parameters G1 G2)
    (hP : keyGen mk n τ g1 g2 = .ok P) (values : List F) (points : List Nat) (hd : points.Nodup)
    (hp : ∀ i ∈ points, i < D.size) (hne : points ≠ []) (proof : Nat → G1)
    (hw : ∀ i ∈ points, provePos mk P.pk values [i] = .ok (proof i)) :
    aggregateProofs points (points.map proof) D.ω = provePos mk P.pk values points := by
  obtain ⟨D', hD', hτ, e1, e2, e3, e4, e5, e6⟩ := keyGen_ok hP
  rw [hm] at hD'; injection hD' with hD'; subst hD'
  have inj := injOn hv points hp
  have hnode : ∀ i ∈ points.toFinset, τ ≠ nodes D.ω i := by
    intro i hi
    exact sub_ne_zero.mp (hτ i (hp i (by simpa using hi)))
  have hpr : ∀ i ∈ points, proof i =
      ((1 / (τ - D.ω ^ i)) * ((polyOf (D.ifft values)).eval τ - values.getD i 0)) • g1 := by
    intro i hi
    have := hw i hi
    rw [provePos_eq hv hm' e1 _ _ (by simp), single_witness hv _ (hp i hi) (hτ i (hp i hi))] at this
    injection this with this
    exact this.symm
  rw [provePos_eq hv hm' e1 _ _ hd]
  unfold aggregateProofs
  rw [aggFold]
  · congr 1
    rw [zero_add, zip_sum (fun pv : Nat × G1 => _) (by intro i; simp) points hd,
      ← List.sum_toFinset _ hd]
    have hA : (aPoly D.ω points).eval τ ≠ 0 := by
      rw [aPoly_eq_nodal _ _ hd]; exact Lagrange.eval_nodal_not_at_node hnode
    have hq := quotient hv points hd hp values τ
    rw [Lagrange.eval_interpolate_not_at_node _ hnode, ← aPoly_eq_nodal _ _ hd] at hq
    have hone : (aPoly D.ω points).eval τ *
        ∑ i ∈ points.toFinset, Lagrange.nodalWeight points.toFinset (nodes D.ω) i *
          (τ - nodes D.ω i)⁻¹ = 1 := by
      have h1 := Lagrange.eval_interpolate_not_at_node (F := F) (1 : Nat → F) hnode
      rw [Lagrange.interpolate_one inj ⟨points.head hne, by simp⟩, eval_one] at h1
      rw [aPoly_eq_nodal _ _ hd]
      simpa using h1.symm
    have hsum : ∀ i ∈ points.toFinset,
        ((aPoly D.ω points / lin D.ω i).eval (D.ω ^ i))⁻¹ • (points.map proof).getD (points.idxOf i) 0 =
        ((polyOf (D.ifft values)).eval τ * (Lagrange.nodalWeight points.toFinset (nodes D.ω) i *
          (τ - nodes D.ω i)⁻¹) - Lagrange.nodalWeight points.toFinset (nodes D.ω) i *
          (τ - nodes D.ω i)⁻¹ * values.getD i 0) • g1 := by
      intro i hi
      have hi' : i ∈ points := by simpa using hi
      rw [idxOf_getD points proof 0 hi', hpr i hi', weight _ _ hd hi', smul_smul]
      congr 1
      show _ * (1 / (τ - nodes D.ω i) * _) = _
      rw [one_div]; ring
    dsimp only
    rw [Finset.sum_congr rfl hsum, ← Finset.sum_smul]
    congr 1
    rw [Finset.sum_sub_distrib, ← Finset.mul_sum]
    apply mul_left_cancel₀ hA
    rw [← hq]
    linear_combination (polyOf (D.ifft values)).eval τ * hone
  · intro pv hpv
    exact b_ne _ _ hd inj (List.of_mem_zip hpv).1

example := C63_aggregate Ex17.mk 3 Ex17.D4 rfl rfl Ex17.d4_valid 5 (1 : F17) (1 : F17) _ rfl [7, 0, 9]
  [2, 0, 3] (by decide) (by decide) (by decide)

/-- C63: an aggregated proof is accepted. -/
theorem C63_accepted (e : G1 →ₗ[F] G2 →ₗ[F] GT) (mk : Nat → Option (Domain F)) (n : Nat)
    (D : Domain F) (hm : mk n = some D) (hm' : mk D.size = some D) (hv : D.Valid) (τ : F) (g1 : G1)
    (g2 : G2) (P : Parameters G1 G2) (hP : keyGen mk n τ g1 g2 = .ok P) (values : List F) (c : G1)
    (h1 : 1 ≤ values.length) (h2 : values.length ≤ D.size) (hc : commit P.pk values = .ok c)
    (points : List Nat) (hd : points.Nodup) (hp : ∀ i ∈ points, i < D.size) (hne : points ≠ [])
    (proof : Nat → G1) (hw : ∀ i ∈ points, provePos mk P.pk values [i] = .ok (proof i)) :
    ∃ w, aggregateProofs points (points.map proof) D.ω = .ok w ∧
      verifyPos e P.vk c (points.map fun i => values.getD i 0) points w D.ω = .ok true := by
  have hτ : ∀ i < D.size, τ ≠ D.ω ^ i := (C61_keys mk n D hm hv τ g1 g2).mp ⟨P, hP⟩
  obtain ⟨P', c', w, hP', hc', hw', hver⟩ := C61_complete e mk n D hm hm' hv τ g1 g2 hτ values h1 h2
    points hd hp
  rw [hP] at hP'; injection hP' with hP'; subst hP'
  rw [hc] at hc'; injection hc' with hc'; subst hc'
  exact ⟨w, by rw [C63_aggregate mk n D hm hm' hv τ g1 g2 P hP values points hd hp hne proof hw, hw'],
    hver⟩

example := C63_accepted Ex17.e Ex17.mk 3 Ex17.D4 rfl rfl Ex17.d4_valid 5 (1 : F17) (1 : F17) _ rfl
  [7, 0, 9] _ (by decide) (by decide) rfl [2, 0, 3] (by decide) (by decide) (by decide)

/-! ### C64: number of values -/

/-- C64.  The statement that a position list is never accepted with a value list of another length, for
every setting. -/
def C64_statement : Prop :=
  ∀ (mk : Nat → Option (Domain F17)) (n : Nat) (τ g1 g2 : F17) (P : Parameters F17 F17) (D : Domain F17)
    (c : F17) (values : List F17) (points : List Nat) (w : F17),
    mk n = some D → mk D.size = some D → D.Valid → keyGen mk n τ g1 g2 = .ok P → points.Nodup →
    (∀ i ∈ points, i < D.size) →
    verifyPos Ex17.e P.vk c values points w D.ω = .ok true → values.length = points.length

/-- What the verifier does with a list of another length: it behaves as if the list were cut, or filled
up with zeros, to the number of positions. -/
theorem C64_partial (e : G1 →ₗ[F] G2 →ₗ[F] GT) (mk : Nat → Option (Domain F)) (n : Nat)
    (D : Domain F) (hm : mk n = some D) (hv : D.Valid) (τ : F) (g1 : G1)
    (g2 : G2) (P : Parameters G1 G2) (hP : keyGen mk n τ g1 g2 = .ok P) (points : List Nat)
    (hd : points.Nodup) (hp : ∀ i ∈ points, i < D.size) (c : G1) (values : List F) (w : G1) :
    verifyPos e P.vk c values points w D.ω =
      verifyPos e P.vk c ((List.range points.length).map fun k => values.getD k 0) points w D.ω := by
  obtain ⟨D', hD', hτ, e1, e2, e3, e4, e5, e6⟩ := keyGen_ok hP
  rw [hm] at hD'; injection hD' with hD'; subst hD'
  rw [verifyPos_eq e hv e2 e3 points hd hp, verifyPos_eq e hv e2 e3 points hd hp]
  have : (Lagrange.interpolate points.toFinset (nodes D.ω)
      fun i => values.getD (points.idxOf i) 0) =
      (Lagrange.interpolate points.toFinset (nodes D.ω) fun i =>
        ((List.range points.length).map fun k => values.getD k 0).getD (points.idxOf i) 0) := by
    apply Lagrange.interpolate_eq_of_values_eq_on
    intro i hi
    have := List.idxOf_lt_length_of_mem (List.mem_toFinset.mp hi)
    rw [List.getD_eq_getElem ((List.range points.length).map _) _ (by simpa using this)]
    simp
  rw [this]

example := C64_partial Ex17.e Ex17.mk 3 Ex17.D4 rfl Ex17.d4_valid 5 (1 : F17) (1 : F17) _ rfl
  [2, 0, 3] (by decide) (by decide) 3 [1, 2]

/-- C64 is violated: the opening of positions 0 and 1 of the vector (7, 0, 9) is accepted with the value
list (7), and also with the list (7, 0, 5). -/
theorem C64_violated : ¬ C64_statement ∧
    ∃ (P : Parameters F17 F17) (c w : F17), keyGen Ex17.mk 3 5 1 1 = .ok P ∧ commit P.pk ([7, 0, 9] : List F17) = .ok c ∧
      verifyPos Ex17.e P.vk c [7] [0, 1] w Ex17.D4.ω = .ok true ∧
      verifyPos Ex17.e P.vk c [7, 0, 5] [0, 1] w Ex17.D4.ω = .ok true := by
  obtain ⟨P, c, w, hP, hc, hw, hver⟩ := C61_complete Ex17.e Ex17.mk 3 Ex17.D4 rfl rfl Ex17.d4_valid 5 1 1
    Ex17.five_not_root [7, 0, 9] (by decide) (by decide) [0, 1] (by decide) (by decide)
  have hs : verifyPos Ex17.e P.vk c [7] [0, 1] w Ex17.D4.ω = .ok true := by
    rw [C64_partial Ex17.e Ex17.mk 3 Ex17.D4 rfl Ex17.d4_valid 5 1 1 P hP [0, 1] (by decide) (by decide)]
    exact hver
  have hl : verifyPos Ex17.e P.vk c [7, 0, 5] [0, 1] w Ex17.D4.ω = .ok true := by
    rw [C64_partial Ex17.e Ex17.mk 3 Ex17.D4 rfl Ex17.d4_valid 5 1 1 P hP [0, 1] (by decide) (by decide)]
    exact hver
  refine ⟨?_, P, c, w, hP, hc, hs, hl⟩
  intro h
  have := h Ex17.mk 3 5 1 1 P Ex17.D4 c [7] [0, 1] w rfl rfl Ex17.d4_valid hP (by decide) (by decide) hs
  simp at this

/-! ### Repeated positions -/

/-- The divisor is zero when another entry of the list stands for the same point. -/
theorem b_zero (ω : F) (points : List Nat) {k k' : Nat} (hk : k < points.length) (hk' : k' < points.length)
    (hne : k ≠ k') (he : ω ^ points[k] = ω ^ points[k']) :
    (aPoly ω points / lin ω points[k]).eval (ω ^ points[k]) = 0 := by
  have hlin : lin ω points[k] ≠ 0 := X_sub_C_ne_zero _
  have hperm := List.getElem_cons_eraseIdx_perm hk
  have hprod : aPoly ω points = lin ω points[k] * ((points.eraseIdx k).map (lin ω)).prod := by
    rw [aPoly_eq_prod, ← List.prod_cons, ← List.map_cons]
    exact ((hperm.map (lin ω)).prod_eq).symm
  have hmem : points[k'] ∈ points.eraseIdx k := by
    rw [List.mem_eraseIdx_iff_getElem]
    exact ⟨k', hk', hne.symm, rfl⟩
  rw [hprod, mul_div_cancel_left₀ _ hlin, eval_list_prod, List.prod_eq_zero_iff, List.map_map, List.mem_map]
  exact ⟨points[k'], hmem, by simp [lin, he]⟩

theorem foldlM_panic {α β : Type} (f : β → α → Except SynthesisError β)
    (hf : ∀ b a, (∃ b', f b a = .ok b') ∨ f b a = .error .panic) (l : List α) (b : β) (x : α) (hx : x ∈ l)
    (hp : ∀ b, f b x = .error .panic) : l.foldlM f b = .error .panic := by
  induction l generalizing b with
  | nil => simp at hx
  | cons y l ih =>
    rw [List.foldlM_cons]
    rcases hf b y with ⟨b', h⟩ | h
    · rw [h]
      rcases List.mem_cons.mp hx with rfl | hx
      · rw [hp] at h; cases h
      · exact ih b' hx
    · rw [h]; rfl

/-- C64.  A position list in which two entries stand for the same point, the first of them with a claimed value, is not
judged at all: the verifier divides by zero. -/
theorem C64_repeated (e : G1 →ₗ[F] G2 →ₗ[F] GT) (vk : VerificationKey G1 G2) (c : G1) (values : List F) (points : List Nat)
    (w : G1) (ω : F) {k k' : Nat} (hk : k < points.length) (hk' : k' < points.length) (hv : k < values.length)
    (hne : k ≠ k') (he : ω ^ points[k] = ω ^ points[k']) :
    verifyPos e vk c values points w ω = .error .panic := by
  have : rPoly ω points values = .error .panic := by
    unfold rPoly
    refine foldlM_panic _ ?_ _ _ (points[k], values[k]) ?_ ?_
    · intro b a
      unfold rStep
      dsimp only
      split_ifs
      · exact .inr rfl
      · exact .inl ⟨_, rfl⟩
    · rw [List.mem_iff_getElem]
      exact ⟨k, by simp [hk, hv], by simp⟩
    · intro b
      unfold rStep
      dsimp only
      rw [if_pos (b_zero ω points hk hk' hne he)]
  unfold verifyPos
  rw [this]; rfl

/-- C64: when the points are distinct and the key is not empty the verifier gives an answer. -/
theorem C64_answers (e : G1 →ₗ[F] G2 →ₗ[F] GT) (vk : VerificationKey G1 G2) (hvk : vk.powers_of_g2 ≠ []) (c : G1)
    (values : List F) (points : List Nat) (w : G1) (ω : F) (hd : points.Nodup)
    (hi : Set.InjOn (fun i => ω ^ i) {i | i ∈ points}) :
    ∃ b, verifyPos e vk c values points w ω = .ok b := by
  have hi' : Set.InjOn (nodes ω) (points.toFinset : Set Nat) := by
    intro a ha b hb hab
    exact hi (by simpa using ha) (by simpa using hb) hab
  unfold verifyPos
  rw [rPoly_eq ω points hd hi']
  match hg : vk.powers_of_g2 with
  | [] => exact absurd hg hvk
  | g :: l => exact ⟨_, rfl⟩

/-- C63: aggregation of proofs for a position list in which two entries stand for the same point divides by zero. -/
theorem C63_repeated (points : List Nat) (proofs : List G1) (ω : F) {k k' : Nat} (hk : k < points.length)
    (hk' : k' < points.length) (hv : k < proofs.length) (hne : k ≠ k') (he : ω ^ points[k] = ω ^ points[k']) :
    aggregateProofs points proofs ω = .error .panic := by
  unfold aggregateProofs
  refine foldlM_panic _ ?_ _ _ (points[k], proofs[k]) ?_ ?_
  · intro b a
    unfold aggStep
    dsimp only
    split_ifs
    · exact .inr rfl
    · exact .inl ⟨_, rfl⟩
  · rw [List.mem_iff_getElem]
    exact ⟨k, by simp [hk, hv], by simp⟩
  · intro b
    unfold aggStep
    dsimp only
    rw [if_pos (b_zero ω points hk hk' hne he)]

/-- C64: an accepted opening with a value for every position lists no point twice. -/
theorem C64_distinct (e : G1 →ₗ[F] G2 →ₗ[F] GT) (vk : VerificationKey G1 G2) (c : G1) (values : List F) (points : List Nat)
    (w : G1) (ω : F) (b : Bool) (hl : points.length ≤ values.length)
    (h : verifyPos e vk c values points w ω = .ok b) : (points.map fun i => ω ^ i).Nodup := by
  rw [List.nodup_iff_injective_getElem]
  intro k k' hkk
  by_contra hne
  have h1 : k.1 < points.length := by simpa using k.2
  have h2 : k'.1 < points.length := by simpa using k'.2
  rw [C64_repeated e vk c values points w ω h1 h2 (by omega) (fun hc => hne (Fin.ext hc)) (by simpa using hkk)] at h
  cases h

/-- Position 3 listed twice, and position 5 of a domain of size four, which stands for the same point as position 1. -/
example (vk : VerificationKey F17 F17) : verifyPos Ex17.e vk 2 [7, 8, 9] [3, 0, 3] 1 Ex17.D4.ω = .error .panic ∧
    verifyPos Ex17.e vk 2 [7, 8] [1, 5] 1 Ex17.D4.ω = .error .panic ∧
    aggregateProofs [3, 0, 3] ([7, 8, 9] : List F17) Ex17.D4.ω = .error .panic :=
  ⟨C64_repeated Ex17.e vk 2 [7, 8, 9] [3, 0, 3] 1 _ (k := 0) (k' := 2) (by decide) (by decide) (by decide) (by decide) rfl,
   C64_repeated Ex17.e vk 2 [7, 8] [1, 5] 1 _ (k := 0) (k' := 1) (by decide) (by decide) (by decide) (by decide)
    (by decide),
   C63_repeated [3, 0, 3] [7, 8, 9] _ (k := 0) (k' := 2) (by decide) (by decide) (by decide) (by decide) rfl⟩

example (c w : F17) : ∃ b, verifyPos Ex17.e { powers_of_g1 := [1, 5, 8, 6, 13], powers_of_g2 := [1, 5, 8, 6, 13], a := 1 } c [7, 8] [3, 0] w Ex17.D4.ω = .ok b :=
  C64_answers Ex17.e _ (by simp) c _ _ w _ (by decide) (by
    intro a ha b hb h
    simp at ha hb
    rcases ha with rfl | rfl <;> rcases hb with rfl | rfl <;> first | rfl | (exact absurd h (by decide)))

/-! ### C74: binding -/

/-- The part of an accepted opening that does not involve position `k`, in the target group: computable
from the opening and the public key. -/
noncomputable def restOf (e : G1 →ₗ[F] G2 →ₗ[F] GT) (vk : VerificationKey G1 G2) (g2 : G2) (ω : F)
    (points : List Nat) (values : List F) (w : G1) (k : Nat) : GT :=
  let r := Lagrange.interpolate points.toFinset (fun i => ω ^ i) fun i => values.getD (points.idxOf i) 0
  e (msm vk.powers_of_g1 (coeffs ((r - C (values.getD (points.idxOf k) 0)) / (X - C (ω ^ k))))) g2 +
    e w (msm vk.powers_of_g2 (coeffs (aPoly ω points / (X - C (ω ^ k)))))

/-- An accepted opening, decomposed at one of its positions. -/
theorem accepted_at (e : G1 →ₗ[F] G2 →ₗ[F] GT) {D : Domain F} (hv : D.Valid) {τ : F} {g1 : G1} {g2 : G2}
    {vk : VerificationKey G1 G2}
    (h1 : vk.powers_of_g1 = (List.range (D.size + 1)).map (fun i => τ ^ i • g1))
    (h2 : vk.powers_of_g2 = (List.range (D.size + 1)).map (fun i => τ ^ i • g2))
    (points : List Nat) (hd : points.Nodup) (hp : ∀ i ∈ points, i < D.size) (c : G1)
    (values : List F) (w : G1) (hacc : verifyPos e vk c values points w D.ω = .ok true) (k : Nat)
    (hk : k ∈ points) :
    e c g2 = values.getD (points.idxOf k) 0 • e g1 g2 +
      (τ - D.ω ^ k) • restOf e vk g2 D.ω points values w k := by
  have inj := injOn hv points hp
  have hcard := card_le points hd hp
  rw [verifyPos_eq e hv h1 h2 points hd hp] at hacc
  injection hacc with hacc
  rw [decide_eq_true_eq] at hacc
  unfold restOf
  dsimp only
  set r := Lagrange.interpolate points.toFinset (nodes D.ω) fun i => values.getD (points.idxOf i) 0
    with hr
  have hk' : k ∈ points.toFinset := by simpa using hk
  have hrk : r.eval (D.ω ^ k) = values.getD (points.idxOf k) 0 :=
    Lagrange.eval_interpolate_at_node _ inj hk'
  set v := values.getD (points.idxOf k) 0 with hvdef
  have hrdeg : r.natDegree < D.size + 1 := by
    apply natDegree_lt_of_degree_lt (by omega)
    refine lt_of_lt_of_le (Lagrange.degree_interpolate_lt _ inj) ?_
    exact_mod_cast (by omega : points.toFinset.card ≤ D.size + 1)
  have hlin : (X - C (D.ω ^ k)).Monic := monic_X_sub_C _
  have hs : r - C v = (X - C (D.ω ^ k)) * ((r - C v) / (X - C (D.ω ^ k))) := by
    symm
    apply EuclideanDomain.mul_div_cancel'
    · exact X_sub_C_ne_zero _
    · apply dvd_iff_isRoot.mpr
      simp [IsRoot, hrk]
  have hA : aPoly D.ω points = (X - C (D.ω ^ k)) * (aPoly D.ω points / (X - C (D.ω ^ k))) := by
    symm
    apply EuclideanDomain.mul_div_cancel'
    · exact X_sub_C_ne_zero _
    · rw [aPoly_eq_nodal _ _ hd]; exact Lagrange.X_sub_C_dvd_nodal (nodes D.ω) hk'
  have hAdeg : (aPoly D.ω points).natDegree < D.size + 1 := by
    rw [aPoly_eq_nodal _ _ hd, Lagrange.natDegree_nodal]; omega
  have d1 : ((r - C v) / (X - C (D.ω ^ k))).natDegree < D.size + 1 := by
    rw [← divByMonic_eq_div _ hlin, natDegree_divByMonic _ hlin, natDegree_sub_C]; omega
  have d2 : (aPoly D.ω points / (X - C (D.ω ^ k))).natDegree < D.size + 1 := by
    rw [← divByMonic_eq_div _ hlin, natDegree_divByMonic _ hlin]; omega
  rw [h1, h2, msm_powers_coeffs _ _ _ _ d1, msm_powers_coeffs _ _ _ _ d2]
  have hrτ : r.eval τ = v + (τ - D.ω ^ k) * ((r - C v) / (X - C (D.ω ^ k))).eval τ := by
    have := congrArg (Polynomial.eval τ) hs
    simp only [eval_sub, eval_mul, eval_X, eval_C] at this
    rw [← this]; ring
  have hAτ : (aPoly D.ω points).eval τ =
      (τ - D.ω ^ k) * (aPoly D.ω points / (X - C (D.ω ^ k))).eval τ := by
    have := congrArg (Polynomial.eval τ) hA
    simpa only [eval_sub, eval_mul, eval_X, eval_C] using this
  rw [hrτ, hAτ] at hacc
  simp only [map_sub, map_smul, LinearMap.sub_apply, LinearMap.smul_apply] at hacc ⊢
  rw [sub_eq_iff_eq_add.mp hacc]
  module

/-- C74.  From two accepted openings of one commitment whose position lists share a position `k` to which
they assign different values, one computes (from the public key and the two openings) the
`1/(τ - ω^k)`-th power of `e(g1, g2)`; this is the assumed-hard bilinear strong Diffie-Hellman problem. -/
theorem C74_binding (e : G1 →ₗ[F] G2 →ₗ[F] GT) (mk : Nat → Option (Domain F)) (n : Nat)
    (D : Domain F) (hm : mk n = some D) (hv : D.Valid) (τ : F) (g1 : G1)
    (g2 : G2) (P : Parameters G1 G2) (hP : keyGen mk n τ g1 g2 = .ok P) (c : G1)
    (I J : List Nat) (hI : I.Nodup) (hJ : J.Nodup) (hI' : ∀ i ∈ I, i < D.size)
    (hJ' : ∀ i ∈ J, i < D.size) (vI vJ : List F) (wI wJ : G1)
    (hacc : verifyPos e P.vk c vI I wI D.ω = .ok true)
    (hacc' : verifyPos e P.vk c vJ J wJ D.ω = .ok true) (k : Nat) (hkI : k ∈ I) (hkJ : k ∈ J)
    (hne : vI.getD (I.idxOf k) 0 ≠ vJ.getD (J.idxOf k) 0) :
    (1 / (τ - D.ω ^ k)) • e g1 g2 = (1 / (vI.getD (I.idxOf k) 0 - vJ.getD (J.idxOf k) 0)) •
      (restOf e P.vk g2 D.ω J vJ wJ k - restOf e P.vk g2 D.ω I vI wI k) := by
  obtain ⟨D', hD', hτ, e1, e2, e3, e4, e5, e6⟩ := keyGen_ok hP
  rw [hm] at hD'; injection hD' with hD'; subst hD'
  have a1 := accepted_at e hv e2 e3 I hI hI' c vI wI hacc k hkI
  have a2 := accepted_at e hv e2 e3 J hJ hJ' c vJ wJ hacc' k hkJ
  have ht := hτ k (hI' k hkI)
  have hd := sub_ne_zero.mpr hne
  set a := vI.getD (I.idxOf k) 0
  set b := vJ.getD (J.idxOf k) 0
  set x := restOf e P.vk g2 D.ω I vI wI k
  set y := restOf e P.vk g2 D.ω J vJ wJ k
  set t := τ - D.ω ^ k
  have h : (a - b) • e g1 g2 = t • (y - x) := by
    rw [a1] at a2
    rw [sub_smul, smul_sub]
    rw [sub_eq_sub_iff_add_eq_add, a2, add_comm]
  have h' : y - x = (1 / t) • ((a - b) • e g1 g2) := by
    rw [h, smul_smul, one_div_mul_cancel ht, one_smul]
  rw [h', smul_smul, smul_smul]
  congr 1
  field_simp

/-- Two conflicting accepted openings (made with knowledge of the trapdoor). -/
theorem conflicting (v : F17) : ∃ P : Parameters F17 F17, keyGen Ex17.mk 3 5 1 1 = .ok P ∧
    verifyPos Ex17.e P.vk 3 [v] [1] (3 - v) Ex17.D4.ω = .ok true := by
  obtain ⟨P, hP⟩ := keyGen_succeeds (G1 := F17) (G2 := F17) 1 1 (mk := Ex17.mk) (n := 3) rfl
    Ex17.d4_valid Ex17.five_not_root
  refine ⟨P, hP, ?_⟩
  obtain ⟨D', hD', hτ, e1, e2, e3, e4, e5, e6⟩ := keyGen_ok hP
  have : D' = Ex17.D4 := by
    have h : Ex17.mk 3 = some Ex17.D4 := rfl
    rw [h] at hD'; injection hD' with hD'; exact hD'.symm
  subst this
  rw [verifyPos_eq Ex17.e Ex17.d4_valid e2 e3 [1] (by decide) (by decide)]
  congr 1
  rw [decide_eq_true_eq, show [1].toFinset = {1} by rfl, Lagrange.interpolate_singleton]
  have h4 : Ex17.D4.ω = 4 := rfl
  simp [Ex17.e, aPoly, lin, h4]
  ring

example : ∃ (P : Parameters F17 F17), keyGen Ex17.mk 3 5 1 1 = .ok P ∧
    verifyPos Ex17.e P.vk 3 [2] [1] (3 - 2) Ex17.D4.ω = .ok true ∧
    verifyPos Ex17.e P.vk 3 [9] [1] (3 - 9) Ex17.D4.ω = .ok true ∧
    ([2] : List F17).getD ([1].idxOf 1) 0 ≠ ([9] : List F17).getD ([1].idxOf 1) 0 := by
  obtain ⟨P, hP, h1⟩ := conflicting 2
  obtain ⟨P', hP', h2⟩ := conflicting 9
  rw [hP] at hP'; injection hP' with hP'; subst hP'
  exact ⟨P, hP, h1, h2, by decide⟩

end Zkp
