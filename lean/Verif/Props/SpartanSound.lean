/- C44: soundness of Spartan's NIZK verifier, for the point that the verifier's own challenges define. -/
import Verif.Proof.SpartanTables
import Verif.Proof.Causal

namespace Zkp.Spartan

open Zkp.Ml Zkp.Sc
open Zkp.Cp (bind_inv say_inv challenge_inv ensure_inv orPanic_inv pure_inv)

set_option linter.unusedSectionVars false
set_option linter.unusedSimpArgs false

variable {F : Type} [Field F] {G : Type} [AddCommGroup G] [Module F G] [DecidableEq F] [DecidableEq G]

/-- The generators have no linear relation, and the one generator for scalars is shared, as the setup of the parameters
produces them except with negligible probability (spartan/src/spartan/setup.rs). -/
structure GoodParams (F : Type) [Field F] [Module F G] (params : SatParams G) : Prop where
  shared : params.pc.gen1 = params.gen1
  one : params.gen1.generators.length = 1
  three : params.gen3.generators.length = 3
  four : params.gen4.generators.length = 4
  indep : Independent F (params.gen1.h :: (params.gen1.generators ++ params.pc.genN.generators))
  indep3 : Independent F (params.gen3.h :: params.gen3.generators)
  indep4 : Independent F (params.gen4.h :: params.gen4.generators)

/-- The bad challenges of a run of the verifier. -/
noncomputable def badNizk (s : Inst F) (inputs : List F) (k : Nat) (φ φ3 φ4 : Nat → G →ₗ[F] F) (S : Submodule F G)
    (com : List G) : List G → List F → Finset F :=
  let nx := Nat.clog 2 s.numConstraints
  let m := Nat.clog 2 s.t
  let z := assign (fun i => (zTab (wit φ m com) inputs m).getD i 0) inputs
  after nx 0 (fun _ vs => badOut (errTab s z nx) vs) fun _ tau =>
  after (4 * nx) (7 * nx) (badSc φ4 (φ 0) S ∅ 3 4 spartanOne (tabsOne s z nx tau)) fun _ b1 =>
  after 1 2 (fun _ _ => ∅) fun a2 _ =>
  after 1 6 (badProduct (φ 0)) fun a3 _ =>
  after 1 7 (fun ps vs => badEq (φ 0) (ps.drop 4) vs) fun _ _ =>
  let ea := φ 0 (a3.getD 0 0) - mle (rowTab s.a z nx) (scPoints b1)
  let eb := φ 0 (a3.getD 1 0) - mle (rowTab s.b z nx) (scPoints b1)
  let ec := φ 0 (a2.getD 0 0) - mle (rowTab s.c z nx) (scPoints b1)
  after 1 0 (fun _ _ => {0}) fun _ ra =>
  after 1 0 (fun _ _ => fewRoots 1 fun x => x * eb + ra.getD 0 0 * ea = x * 0 + 0) fun _ rb =>
  after 1 0 (fun _ _ => fewRoots 1 fun x => x * ec + (ra.getD 0 0 * ea + rb.getD 0 0 * eb) = x * 0 + 0) fun _ rc =>
  after (4 * (m + 1)) (7 * (m + 1)) (badSc φ3 (φ 0) S {1} 2 3 spartanTwo
    [zTab (wit φ m com) inputs m, combTab s (scPoints b1) m (ra.getD 0 0) (rb.getD 0 0) (rc.getD 0 0)]) fun _ b2 =>
  let y2 := (scPoints b2).tail.drop ((scPoints b2).tail.length / 2)
  after (k + 1) (2 * k + 4) (badInner φ k y2) fun _ _ => badEq (balance φ y2)

theorem badNizk_card (s : Inst F) (inputs : List F) (k : Nat) (φ φ3 φ4 : Nat → G →ₗ[F] F) (S : Submodule F G)
    (com ps : List G) (vs : List F) : (badNizk s inputs k φ φ3 φ4 S com ps vs).card ≤ 6 := by
  have r : ∀ P : F → Prop, (fewRoots 1 P).card ≤ 6 := fun P => (fewRoots_card 1 P).trans (by omega)
  unfold badNizk
  refine after_card (fun _ _ => r _) (fun _ _ => after_card (fun _ _ => badSc_card _ _ _ _ _ _ 6 (by simp) (by simp) _ _ _ _)
    fun _ _ => after_card (fun _ _ => by simp) fun _ _ => after_card (fun _ _ => r _) fun _ _ =>
    after_card (fun _ _ => r _) fun _ _ => after_card (fun _ _ => by simp) fun _ _ => after_card (fun _ _ => r _) fun _ _ =>
    after_card (fun _ _ => r _) fun _ _ => after_card (fun _ _ => badSc_card _ _ _ _ _ _ 6 (by simp) (by simp) _ _ _ _)
    fun _ _ => after_card (fun _ _ => badX_card _ _ _ _ _ _) fun _ _ _ _ => r _) _ _

/-- The list of points that was said first. -/
def firstPts : Transcript F G → List G
  | [] => []
  | .pts _ p :: _ => p
  | _ :: t => firstPts t

theorem clog_t (s : Inst F) : 2 ^ Nat.clog 2 s.t = s.t := by
  unfold Inst.t padTo
  rw [Nat.clog_pow 2 _ (by decide)]

theorem eq_last {ch : Oracle F G} {params : MultiParams G} {proof : EqProof F G} {c1 c2 : G} {b : Bool}
    {tr tr' : Transcript F G} (h : eqVerify ch params c1 c2 proof tr = .ok (b, tr')) : ∃ t l, tr' = t ++ [.chal l] := by
  unfold eqVerify at h
  obtain ⟨_, _, _, h⟩ := bind_inv h
  obtain ⟨_, _, _, h⟩ := bind_inv h
  obtain ⟨_, _, _, h⟩ := bind_inv h
  obtain ⟨_, _, h1, h⟩ := bind_inv h
  obtain ⟨_, rfl⟩ := challenge_inv h1
  obtain ⟨_, rfl⟩ := pure_inv h
  exact ⟨_, _, rfl⟩

set_option maxHeartbeats 3200000 in
theorem sat_sound (params : SatParams G) (hp : GoodParams F params) (s : Inst F) (hf : s.Fits) (inputs : List F)
    (hz : ZerosLast inputs) (k : Nat) (u : G) (hu : params.gen1.generators = [u]) (φ φ3 φ4 : Nat → G →ₗ[F] F)
    (hφ : Reads (u :: params.pc.genN.generators) params.gen1.h φ)
    (hφ3 : Reads params.gen3.generators params.gen3.h φ3) (hφ4 : Reads params.gen4.generators params.gen4.h φ4)
    (ch : Oracle F G) (proof : SatProof F G) (hk : proof.dot.L.length = k) (rx ry : List F) (a b c : F)
    (tr tr' : Transcript F G) (h : satVerify ch params s inputs proof (a, b, c) tr = .ok ((rx, ry), tr')) :
    (∃ p q, At ch (tr ++ [.frs "r1cs_input" (1 :: inputs ++ List.replicate (s.t - inputs.length - 1) 0)] ++
        [.pts "poly_commitment" proof.commitWitness]) tr' p q ∧
      q.length = 5 * Nat.clog 2 s.numConstraints + 4 * (Nat.clog 2 s.t + 1) + k + 8 ∧
      rx = scPoints ((q.drop (Nat.clog 2 s.numConstraints)).take (4 * Nat.clog 2 s.numConstraints)) ∧
      ry = scPoints ((q.drop (5 * Nat.clog 2 s.numConstraints + 6)).take (4 * (Nat.clog 2 s.t + 1))) ∧
      rx.length = Nat.clog 2 s.numConstraints ∧ ry.length = Nat.clog 2 s.t + 1 ∧ ∃ t l, tr' = t ++ [.chal l]) ∧
    (evaluateMle s.a rx ry = some a → evaluateMle s.b rx ry = some b → evaluateMle s.c rx ry = some c →
      s.Sat (assign (fun i => (zTab (wit φ (Nat.clog 2 s.t) proof.commitWitness) inputs (Nat.clog 2 s.t)).getD i 0) inputs) ∨
      HitFrom ch (badNizk s inputs k φ φ3 φ4 (Submodule.span F {u, params.gen1.h}) proof.commitWitness)
        (tr ++ [.frs "r1cs_input" (1 :: inputs ++ List.replicate (s.t - inputs.length - 1) 0)] ++
          [.pts "poly_commitment" proof.commitWitness]) tr') := by
  obtain ⟨m, hm⟩ : ∃ m, m = Nat.clog 2 s.t := ⟨_, rfl⟩
  obtain ⟨nx, hnx⟩ : ∃ nx, nx = Nat.clog 2 s.numConstraints := ⟨_, rfl⟩
  obtain ⟨S, hS⟩ : ∃ S, S = Submodule.span F {u, params.gen1.h} := ⟨_, rfl⟩
  obtain ⟨w, hw⟩ : ∃ w, w = wit φ m proof.commitWitness := ⟨_, rfl⟩
  obtain ⟨z, hzd⟩ : ∃ z, z = assign (fun i => (zTab w inputs m).getD i 0) inputs := ⟨_, rfl⟩
  have hwl : w.length = 2 ^ m := by rw [hw, wit_length]
  have ht : 2 ^ m = s.t := by rw [hm, clog_t]
  unfold Inst.Fits at hf
  unfold badNizk
  simp only [← hm, ← hnx, ← hS, ← hw, ← hzd] at hf ⊢
  unfold satVerify scVerify at h
  simp only [← hm, ← hnx, hp.shared] at h
  -- the statement and the commitment
  obtain ⟨_, _, h1, h⟩ := bind_inv h
  obtain ⟨hin, rfl⟩ := ensure_inv h1
  obtain ⟨_, _, h1, h⟩ := bind_inv h
  obtain rfl := say_inv h1
  obtain ⟨_, tr0, h1, h⟩ := bind_inv h
  rw [say_inv h1]
  clear h1
  simp only [decide_eq_true_eq] at hin
  rw [← ht] at hin
  -- the steps of the verifier
  obtain ⟨tau, tr1, htau, h⟩ := bind_inv h
  obtain ⟨⟨rx', evalX⟩, tr2, hsc1, h⟩ := bind_inv h
  obtain ⟨ok, tr3, hknow, h⟩ := bind_inv h
  obtain ⟨_, _, h1, h⟩ := bind_inv h
  obtain ⟨rfl, rfl⟩ := ensure_inv h1
  obtain ⟨ok, tr4, hprod, h⟩ := bind_inv h
  obtain ⟨_, _, h1, h⟩ := bind_inv h
  obtain ⟨rfl, rfl⟩ := ensure_inv h1
  obtain ⟨_, _, h1, h⟩ := bind_inv h
  obtain rfl := say_inv h1
  obtain ⟨_, _, h1, h⟩ := bind_inv h
  obtain rfl := say_inv h1
  obtain ⟨_, _, h1, h⟩ := bind_inv h
  obtain rfl := say_inv h1
  obtain ⟨_, _, h1, h⟩ := bind_inv h
  obtain rfl := say_inv h1
  obtain ⟨eq, _, h1, h⟩ := bind_inv h
  obtain ⟨heq, rfl⟩ := orPanic_inv h1
  obtain ⟨ok, tr5, heq1, h⟩ := bind_inv h
  obtain ⟨_, _, h1, h⟩ := bind_inv h
  obtain ⟨rfl, rfl⟩ := ensure_inv h1
  obtain ⟨ra, tr6, h1, h⟩ := bind_inv h
  obtain ⟨hra, ht6⟩ := challenge_inv h1
  obtain ⟨rb, tr7, h1, h⟩ := bind_inv h
  obtain ⟨hrb, ht7⟩ := challenge_inv h1
  obtain ⟨rc, tr8, h1, h⟩ := bind_inv h
  obtain ⟨hrc, ht8⟩ := challenge_inv h1
  obtain ⟨⟨ry', evalY⟩, tr9, hsc2, h⟩ := bind_inv h
  obtain ⟨ok, tr10, hdot, h⟩ := bind_inv h
  obtain ⟨_, _, h1, h⟩ := bind_inv h
  obtain ⟨rfl, rfl⟩ := ensure_inv h1
  obtain ⟨y0, _, h1, h⟩ := bind_inv h
  obtain ⟨hy0, rfl⟩ := orPanic_inv h1
  obtain ⟨ok, tr11, heq2, h⟩ := bind_inv h
  obtain ⟨_, _, h1, h⟩ := bind_inv h
  obtain ⟨rfl, rfl⟩ := ensure_inv h1
  obtain ⟨hxy, rfl⟩ := pure_inv h
  obtain ⟨rfl, rfl⟩ : rx' = rx ∧ ry' = ry := by simpa using hxy
  -- values of commitments to one scalar
  have hcom : ∀ x e : F, commitVec params.gen1.generators [x] params.gen1.h e = x • u + e • params.gen1.h := by
    intro x e; rw [hu]; simp [commitVec, msm]
  have e0 : φ 0 u = 1 := hφ.gen 0 0 (by simp)
  have hψ : ∀ x e : F, φ 0 (commitVec params.gen1.generators [x] params.gen1.h e) = x := by
    intro x e; rw [hcom, map_add, map_smul, map_smul, e0, hφ.blind]; simp
  have hSm : ∀ x e : F, commitVec params.gen1.generators [x] params.gen1.h e ∈ S := by
    intro x e
    rw [hcom, hS]
    exact Submodule.add_mem _ (Submodule.smul_mem _ _ (Submodule.subset_span (by simp)))
      (Submodule.smul_mem _ _ (Submodule.subset_span (by simp)))
  -- where they are
  obtain ⟨q1, l1⟩ := challenges_at htau
  obtain ⟨a2, b2, q2, la2, lb2, hrx, hrxl, k2⟩ := scRounds_sound spartanOne_deg le_rfl rfl ch params.gen1 params.gen4 φ4
    (φ 0) S ∅ hφ4 hp.four hψ hSm _ _ _ _ _ _ _ _ hsc1 (tabsOne s z nx tau) (tabsOne_ok s z nx tau l1)
  obtain ⟨c3, q3⟩ := knowledge_at hknow
  obtain ⟨c4, q4, k4⟩ := product_sound (φ 0) hψ (hφ.blind 0) hprod
  obtain ⟨c5, q5', k5⟩ := eq_sound (φ 0) (hφ.blind 0) heq1
  have p5 := ((((At.refl ch tr4).pt "comm_Az_claim" proof.va).pt "comm_Bz_claim" proof.vb).pt "comm_Cz_claim" proof.vc).pt
    "comm_prod_Az_Bz_claims" proof.prod
  have q5 := p5.trans q5'
  have q6 := (At.refl ch tr5).chal "challenege_Az"
  rw [hra, ht6, List.nil_append] at q6
  have q7 := (At.refl ch tr6).chal "challenege_Bz"
  rw [hrb, ht7, List.nil_append] at q7
  have q8 := (At.refl ch tr7).chal "challenege_Cz"
  rw [hrc, ht8, List.nil_append] at q8
  obtain ⟨a9, b9, q9, la9, lb9, hry, hryl, k9⟩ := scRounds_sound spartanTwo_deg le_rfl rfl ch params.gen1 params.gen3 φ3
    (φ 0) S {1} hφ3 hp.three hψ hSm _ _ _ _ _ _ _ _ hsc2 [zTab w inputs m, combTab s rx' m ra rb rc]
    (tabsTwo_ok s w inputs m hwl hin rx' ra rb rc)
  have hdot' := hdot
  obtain ⟨a10, b10, q10, la10, lb10, k10⟩ := inner_sound ch params.pc ry'.tail proof.commitWitness proof.commitRy proof.dot k
    hk u (by rw [hp.shared]; exact hu) φ (by rw [hp.shared]; exact hφ) _ _ hdot
  obtain ⟨y2, hy2⟩ : ∃ y2, y2 = ry'.tail.drop (ry'.tail.length / 2) := ⟨_, rfl⟩
  rw [← hy2] at k10
  obtain ⟨c11, q11, k11⟩ := eq_sound (balance φ y2) (balance_h hφ y2) heq2
  have f10 := q11.pre
  have f9 := q10.pre.trans f10
  have f8 := q9.pre.trans f9
  have f7 := q8.pre.trans f8
  have f6 := q7.pre.trans f7
  have f5 := q6.pre.trans f6
  have f4 := q5.pre.trans f5
  have f3 := q4.pre.trans f4
  have f2 := q3.pre.trans f3
  have f1 := q2.pre.trans f2
  refine ⟨?_, ?_⟩
  · have q := q1.trans (q2.trans (q3.trans (q4.trans (q5.trans (q6.trans (q7.trans (q8.trans (q9.trans (q10.trans q11)))))))))
    refine ⟨_, _, q, ?_, ?_, ?_, hrxl, hryl, eq_last heq2⟩
    · simp only [List.length_append, List.length_cons, List.length_nil, l1, lb2, lb9, lb10]
      ring
    · rw [← l1, List.drop_left, l1, ← lb2, List.take_left, hrx]
    · have e : ∀ X : List F, tau ++ (b2 ++ ([c3] ++ ([c4] ++ ([] ++ [c5] ++ ([ra] ++ ([rb] ++ ([rc] ++ X))))))) =
          (tau ++ b2 ++ [c3, c4, c5, ra, rb, rc]) ++ X := by simp
      have l : (tau ++ b2 ++ [c3, c4, c5, ra, rb, rc]).length = 5 * nx + 6 := by simp [l1, lb2]; ring
      rw [e, ← l, List.drop_left, ← lb9, List.take_left, hry]
  intro ha hb hc
  by_cases hsat : s.Sat z
  · exact Or.inl hsat
  right
  -- some row has an error
  have herr : ∃ j, (errTab s z nx).getD j 0 ≠ 0 := by
    by_contra hno
    push Not at hno
    refine hsat ⟨by rw [hzd]; rfl, fun i hi => ?_⟩
    have hi' : i < 2 ^ nx := lt_of_lt_of_le hi (by rw [hnx]; exact Nat.le_pow_clog (by decide) _)
    have := hno i
    unfold errTab at this
    rw [getD_map_range _ _ hi'] at this
    exact sub_eq_zero.1 this
  rcases out_sound ch _ nx (errTab s z nx) tau _ _ (by simp [errTab]) herr htau with hit | n1
  · exact (HitFrom.of_hit hit).first q1 l1 f1
  refine HitFrom.second q1 rfl l1 ?_
  rcases k2 (by rw [hψ, total_one s z nx tau l1]; exact fun h => n1 h.symm) with hit | ⟨n2, -, -⟩
  · exact hit.first q2 lb2 f2
  refine HitFrom.second q2 la2 lb2 (HitFrom.second q3 rfl rfl ?_)
  rcases k4 with hit | k4
  · exact hit.first q4 rfl f4
  refine HitFrom.second q4 rfl rfl ?_
  rcases k5 with hit | k5
  · exact (hit.lift (B := fun ps vs => badEq (φ 0) (ps.drop 4) vs) p5 (fun ps vs => by simp) List.prefix_rfl).first q5 rfl f5
  refine HitFrom.second q5 rfl rfl ?_
  rw [← hrx]
  simp only [List.getD_cons_zero, List.getD_cons_succ]
  obtain ⟨ea, hea⟩ : ∃ e, e = φ 0 proof.va - mle (rowTab s.a z nx) rx' := ⟨_, rfl⟩
  obtain ⟨eb, heb⟩ : ∃ e, e = φ 0 proof.vb - mle (rowTab s.b z nx) rx' := ⟨_, rfl⟩
  obtain ⟨ec, hec⟩ : ∃ e, e = φ 0 proof.vc - mle (rowTab s.c z nx) rx' := ⟨_, rfl⟩
  rw [← hea, ← heb, ← hec]
  have hne : ¬ (ea = 0 ∧ eb = 0 ∧ ec = 0) := by
    rintro ⟨z1, z2, z3⟩
    apply n2
    have e1 : eq = mle (evalEq tau) rx' := by
      unfold evalEqXY at heq
      rw [if_neg (by rw [hrxl, l1]; simp), eqXY_sum rx' tau (by rw [hrxl, l1])] at heq
      rw [← Option.some.inj heq]
      unfold mle
      refine Finset.sum_congr rfl fun j hj => ?_
      rw [Zkp.Cp.evalEq_getD _ _ (by rw [l1, ← hrxl]; exact Finset.mem_range.1 hj), mul_comm]
    rw [← k5, map_smul, map_sub, k4, e1]
    simp only [spartanOne, tabsOne, List.map_cons, List.getD_cons_zero, List.getD_cons_succ, smul_eq_mul]
    rw [hea] at z1
    rw [heb] at z2
    rw [hec] at z3
    rw [sub_eq_zero.1 z1, sub_eq_zero.1 z2, sub_eq_zero.1 z3]
    ring
  by_cases hsum : ra * ea + rb * eb + rc * ec = 0
  · by_cases z3 : ec = 0
    · by_cases z2 : eb = 0
      · have z1 : ea ≠ 0 := fun z1 => hne ⟨z1, z2, z3⟩
        have hr0 : ra = 0 := by
          rw [z2, z3, mul_zero, mul_zero, add_zero, add_zero] at hsum
          exact (mul_eq_zero.1 hsum).resolve_right z1
        exact HitFrom.first ⟨tr5, _, [], [], At.refl _ _, by rw [ht6], by rw [hra, hr0]; simp⟩ q6 rfl f6
      · refine HitFrom.second q6 rfl rfl (HitFrom.first ⟨tr6, _, [], [], At.refl _ _, by rw [ht7], ?_⟩ q7 rfl f7)
        rw [hrb]
        exact lin_one z2 (by rw [z3] at hsum; simpa [add_comm] using hsum)
    · refine HitFrom.second q6 rfl rfl (HitFrom.second q7 rfl rfl
        (HitFrom.first ⟨tr7, _, [], [], At.refl _ _, by rw [ht8], ?_⟩ q8 rfl f8))
      rw [hrc]
      exact lin_one z3 (by simp only [List.getD_cons_zero]; linear_combination hsum)
  refine HitFrom.second q6 rfl rfl (HitFrom.second q7 rfl rfl (HitFrom.second q8 rfl rfl ?_))
  simp only [List.getD_cons_zero]
  have htot := total_two s w inputs m nx hwl hin hf.1 hf.2.1 hf.2.2 rx' hrxl ra rb rc
  rw [← hzd] at htot
  rcases k9 (by
    rw [htot, map_add, map_add, map_smul, map_smul, map_smul]
    simp only [smul_eq_mul]
    intro hh
    apply hsum
    rw [hea, heb, hec]
    linear_combination hh) with hit | ⟨n9, m9, x9⟩
  · exact hit.first q9 lb9 f9
  refine HitFrom.second q9 la9 lb9 ?_
  rw [← hry, ← hy2]
  rcases k10 (fun y hy => by simpa using x9 y (List.mem_of_mem_tail hy)) with hit | hbal
  · exact hit.first q10 lb10 f10
  refine HitFrom.second q10 la10 lb10 ?_
  rcases k11 with hit | k11
  · exact hit
  exfalso
  obtain ⟨y0', ys, hys⟩ : ∃ y ys, ry' = y :: ys := List.exists_cons_of_length_pos (by omega)
  obtain rfl : y0' = y0 := by rw [hys] at hy0; simpa using hy0
  have hysl : ys.length = m := by rw [hys] at hryl; simpa using hryl
  have htl : ry'.tail = ys := by rw [hys]; rfl
  rw [htl] at hy2 hbal k11
  have hLS : ∀ v ∈ S, balance φ y2 v = φ 0 v := by
    intro v hv
    rw [hS] at hv
    refine LinearMap.eqOn_span (f := balance φ y2) (g := φ 0) ?_ hv
    intro x hx
    rcases hx with rfl | hx
    · rw [balance_u hφ, e0]
    · rw [Set.mem_singleton_iff.1 hx, balance_h hφ, hφ.blind]
  have hw1 : balance φ y2 proof.commitRy = mle w ys := by
    have := balance_rows φ params.gen1.h hφ.blind m ys hysl proof.commitWitness
    rw [map_add, hp.shared, hy2, this, ← hw] at hbal
    rw [hy2]
    linear_combination hbal
  have hin1 : balance φ y2 (commitVec params.gen1.generators
      [sparseEvaluateValue (1 :: inputs ++ List.replicate (2 ^ ys.length - inputs.length - 1) 0) ys] params.gen1.h (0 : F)) =
      mle (1 :: inputs ++ List.replicate (2 ^ m - inputs.length - 1) 0) ys := by
    rw [hLS _ (hSm _ _), hψ, hysl]
    exact C45_inputs inputs _ ys hz (by rw [hysl]; omega)
  rw [map_smul, map_add, map_smul, map_smul, hw1, hin1, hLS _ (m9 (by omega))] at k11
  apply n9
  rw [← k11]
  simp only [spartanTwo, List.map_cons, List.getD_cons_zero, List.getD_cons_succ, smul_eq_mul]
  rw [← hrxl] at hf
  rw [mle_combTab s rx' ry' m ra rb rc a b c hryl hf.1 hf.2.1 hf.2.2 ha hb hc, hys, mle_zTab w inputs m hwl _ ys hysl]
  ring

/-- The verifier accepts, and the points that come with the proof are the challenges it drew. -/
def AcceptsAt (ch : Oracle F G) (params : SatParams G) (s : Inst F) (inputs : List F) (proof : NizkProof F G)
    (r1csHash paramsHash : F) (tr : Transcript F G) : Prop :=
  ∃ a b c, evaluateMle s.a proof.rx proof.ry = some a ∧ evaluateMle s.b proof.rx proof.ry = some b ∧
    evaluateMle s.c proof.rx proof.ry = some c ∧
    satVerify ch params s inputs proof.sat (a, b, c) (nizkStart r1csHash paramsHash) = .ok ((proof.rx, proof.ry), tr)

theorem AcceptsAt.accepts {ch : Oracle F G} {params : SatParams G} {s : Inst F} {inputs : List F} {proof : NizkProof F G}
    {r1csHash paramsHash : F} {tr : Transcript F G} (h : AcceptsAt ch params s inputs proof r1csHash paramsHash tr) :
    verifyNizk ch params s inputs proof r1csHash paramsHash = .ok () := by
  obtain ⟨a, b, c, ha, hb, hc, h⟩ := h
  unfold verifyNizk
  rw [ha, hb, hc]
  simp only [h]

/-- There is a function that reads the witness from the commitment, such that: if the verifier accepts, and the points
that come with the proof are the challenges the verifier drew, then the witness that was read satisfies the instance with
the given public inputs, or some challenge lies in a set of at most six elements, fixed by the transcript before it. The
number of challenges is fixed.

Partial: that the points are those challenges is a hypothesis; the code does not check it, and without it the claim is false
(`C44_violated`). No public input that is zero may come before one that is not (C45). The generators must have no linear relation (`GoodParams`);
for a real group, where the discrete logarithms exist, this is the algebraic form of the binding assumption. -/
theorem C44_partial (params : SatParams G) (hp : GoodParams F params) (s : Inst F) (hf : s.Fits) (inputs : List F)
    (hz : ZerosLast inputs) (k : Nat) :
    ∃ (ext : List G → Nat → F) (bad : Transcript F G → List F → Finset F), (∀ t vs, (bad t vs).card ≤ 6) ∧
      ∀ (ch : Oracle F G) (proof : NizkProof F G) (r1csHash paramsHash : F) (tr : Transcript F G),
        proof.sat.dot.L.length = k → AcceptsAt ch params s inputs proof r1csHash paramsHash tr →
        numChal tr = 5 * Nat.clog 2 s.numConstraints + 4 * (Nat.clog 2 s.t + 1) + k + 8 ∧
        (s.Sat (assign (ext proof.sat.commitWitness) inputs) ∨ Hit ch bad (nizkStart r1csHash paramsHash) tr) := by
  obtain ⟨u, hu⟩ := List.length_eq_one_iff.1 hp.one
  obtain ⟨φ, hφ⟩ := hp.indep.reads
  obtain ⟨φ3, hφ3⟩ := hp.indep3.reads
  obtain ⟨φ4, hφ4⟩ := hp.indep4.reads
  rw [hu] at hφ
  refine ⟨fun com i => (zTab (wit φ (Nat.clog 2 s.t) com) inputs (Nat.clog 2 s.t)).getD i 0,
    fun t vs => badNizk s inputs k φ φ3 φ4 (Submodule.span F {u, params.gen1.h}) (firstPts t) (said t) vs,
    fun t vs => badNizk_card s inputs k φ φ3 φ4 _ _ _ _, ?_⟩
  intro ch proof r1csHash paramsHash tr hk hacc
  obtain ⟨a, b, c, ha, hb, hc, h⟩ := hacc
  obtain ⟨⟨_, q, hq, hql, -⟩, hor⟩ := sat_sound params hp s hf inputs hz k u hu φ φ3 φ4 hφ hφ3 hφ4 ch proof.sat hk _ _ a b c _ _ h
  refine ⟨?_, (hor ha hb hc).imp id ?_⟩
  · rw [← drawn_length ch, hq.chs, List.length_append, hql]
    exact Nat.zero_add _
  rintro ⟨t, l, a, b, hat, hpre, hmem⟩
  refine ⟨t, l, ?_, hpre, ?_⟩
  · refine List.IsPrefix.trans ?_ hat.pre
    rw [List.append_assoc]
    exact List.prefix_append _ _
  · obtain ⟨w, hw⟩ := hat.pre
    have h1 : firstPts t = proof.sat.commitWitness := by rw [← hw]; rfl
    have h2 : said t = a := hat.pts
    have h3 : drawn ch t = b := hat.chs
    beta_reduce
    rw [h1, h2, h3]
    exact hmem

/-- Of the `|F| ^ m` sequences of `m` challenges at most `6 · m · |F| ^ (m - 1)` make the verifier accept an instance that cannot
be satisfied with the given public inputs, whatever the prover does.

Partial: as `C44_partial`. -/
theorem C44_count_partial [Fintype F] (params : SatParams G) (hp : GoodParams F params) (s : Inst F) (hf : s.Fits)
    (inputs : List F) (hz : ZerosLast inputs) (k : Nat) (hunsat : ¬ ∃ aux, s.Sat (assign aux inputs))
    (r1csHash paramsHash : F) (m : Nat) (hm : m = 5 * Nat.clog 2 s.numConstraints + 4 * (Nat.clog 2 s.t + 1) + k + 8)
    (prover : (Fin m → F) → NizkProof F G)
    (hk : ∀ f, (prover f).sat.dot.L.length = k)
    (hcausal : ∀ f g tr tr', AcceptsAt (tape (List.ofFn f)) params s inputs (prover f) r1csHash paramsHash tr →
      AcceptsAt (tape (List.ofFn g)) params s inputs (prover g) r1csHash paramsHash tr' →
      ∀ i : Fin m, (∀ j < i, f j = g j) → before i tr = before i tr')
    (acc : Finset (Fin m → F))
    (hacc : ∀ f ∈ acc, ∃ tr, AcceptsAt (tape (List.ofFn f)) params s inputs (prover f) r1csHash paramsHash tr) :
    acc.card ≤ m * 6 * Fintype.card F ^ (m - 1) := by
  obtain ⟨ext, bad, hb, h⟩ := C44_partial params hp s hf inputs hz k
  exact card_accepted m 6 bad hb (nizkStart r1csHash paramsHash) rfl
    (fun f tr => AcceptsAt (tape (List.ofFn f)) params s inputs (prover f) r1csHash paramsHash tr)
    (fun f tr ha => ((h _ (prover f) _ _ tr (hk f) ha).1.trans hm.symm).le) hcausal
    (fun f tr ha => (h _ (prover f) _ _ tr (hk f) ha).2.resolve_left fun hs => hunsat ⟨_, hs⟩) acc hacc

/-! ### A run -/

/-- A unit vector. -/
def unit {n : Nat} (i : Fin n) : Fin n → F17 := Pi.single i 1

/-- Vectors with five coordinates. -/
abbrev V5 := Fin 5 → F17

/-- A unit vector with five coordinates. -/
def ex (i : Fin 5) : V5 := unit i

/-- Unit vectors as generators. -/
def exParams : SatParams V5 :=
  ⟨⟨1, ⟨1, [ex 2], ex 0⟩, ⟨1, [ex 1], ex 0⟩⟩, ⟨1, [ex 1], ex 0⟩, ⟨3, [ex 1, ex 2, ex 3], ex 0⟩,
    ⟨4, [ex 1, ex 2, ex 3, ex 4], ex 0⟩, 1⟩

theorem unit_indep {n : Nat} (l : List (Fin n)) (hl : l.Nodup) : Independent F17 (l.map unit) := by
  intro s hs h x hx
  obtain ⟨i, hi, rfl⟩ := List.getElem_of_mem hx
  have hil : i < l.length := by simpa [hs] using hi
  have h1 : ∀ (l : List (Fin n)) (s : List F17) (j : Fin n), j ∉ l → msm (l.map unit) s j = 0 := by
    intro l
    induction l with
    | nil => intro s j _; simp [msm]
    | cons a l ih =>
      intro s j hj
      cases s with
      | nil => simp [msm]
      | cons y s =>
        rw [List.map_cons, msm_cons]
        simp only [List.mem_cons, not_or] at hj
        simp [unit, Pi.single_apply, hj.1, ih s j hj.2]
  have h2 : ∀ (l : List (Fin n)) (s : List F17) (i : Nat) (hi : i < l.length) (hs : i < s.length), l.Nodup →
      msm (l.map unit) s l[i] = s[i] := by
    intro l
    induction l with
    | nil => intro s i hi; simp at hi
    | cons a l ih =>
      intro s i hi hs hn
      cases s with
      | nil => simp at hs
      | cons y s =>
        rw [List.nodup_cons] at hn
        rw [List.map_cons, msm_cons]
        cases i with
        | zero => simp [unit, h1 l s a hn.1]
        | succ i =>
          have := ih s i (by simpa using hi) (by simpa using hs) hn.2
          have hne : l[i]'(by simpa using hi) ≠ a := fun h => hn.1 (h ▸ List.getElem_mem _)
          simp [unit, Pi.single_apply, hne, this]
  have := h2 l s i hil hi hl
  rw [h] at this
  simpa using this.symm

theorem ex_indep (l : List (Fin 5)) (hl : l.Nodup) : Independent F17 (l.map ex) := unit_indep l hl

theorem exParams_good : GoodParams F17 exParams :=
  ⟨rfl, rfl, rfl, rfl, ex_indep [0, 1, 2] (by decide), ex_indep [0, 1, 2, 3] (by decide), ex_indep [0, 1, 2, 3, 4] (by decide)⟩

/-- The constraint `x · x = 4`. -/
def exInst : Inst F17 := ⟨1, 1, 1, [[(1, .aux 0)]], [[(1, .aux 0)]], [[(4, .input 0)]]⟩

/-- A proof for the witness 2 when all challenges are 3. -/
def exProof : NizkProof F17 V5 :=
  ⟨{ commitWitness := [(2 : F17) • ex 2]
     proofOne := ⟨[], [], []⟩
     proofTwo := ⟨[(12 : F17) • ex 1 + (6 : F17) • ex 2 + (11 : F17) • ex 3], [(10 : F17) • ex 1], [⟨0, 0, [2, 1, 16], 0, 0⟩]⟩
     wRy := 0
     dot := ⟨[], [], 0, 0, 6, 0⟩
     va := (2 : F17) • ex 1, vb := (2 : F17) • ex 1, vc := (4 : F17) • ex 1, prod := (4 : F17) • ex 1
     know := ⟨0, 12, 0⟩
     product := ⟨0, 0, 0, [6, 0, 6, 0, 0]⟩
     eq1 := ⟨0, 0⟩
     eq2 := ⟨0, 0⟩
     commitRy := (2 : F17) • ex 1 }, [], [3]⟩

theorem exInst_t : exInst.t = 1 := (by decide : padTo (max 1 1) = 1)

theorem exInst_fits : exInst.Fits := by
  unfold Inst.Fits Ml.Fits
  rw [exInst_t]
  have : Nat.clog 2 1 = 0 := by decide
  simp [exInst, col, this]

/-- It is accepted at the challenges drawn. -/
theorem exAccepts : ∃ tr, AcceptsAt (fun _ => (3 : F17)) exParams exInst [] exProof 5 6 tr := by
  have h0 : Nat.clog 2 1 = 0 := by decide
  have h1 : Nat.clog 2 exInst.numConstraints = 0 := h0
  have h2 : Nat.clog 2 exInst.t = 0 := by rw [exInst_t]; exact h0
  have hs : ∃ tr, satVerify (fun _ => (3 : F17)) exParams exInst [] exProof.sat (15, 15, 12) (nizkStart 5 6) =
      .ok ((exProof.rx, exProof.ry), tr) := by
    unfold satVerify
    simp only [h1, h2, exInst_t]
    exact ⟨_, rfl⟩
  obtain ⟨tr, h⟩ := hs
  exact ⟨tr, 15, 15, 12, by decide, by decide, by decide, h⟩

/-- It has 12 challenges; the witness satisfies the constraint or 3 was a bad challenge. -/
example : ∃ (ext : List V5 → Nat → F17) (bad : Transcript F17 V5 → List F17 → Finset F17), (∀ t vs, (bad t vs).card ≤ 6) ∧
    ∃ tr, AcceptsAt (fun _ => (3 : F17)) exParams exInst [] exProof 5 6 tr ∧ numChal tr = 12 ∧
      (exInst.Sat (assign (ext [(2 : F17) • ex 2]) []) ∨ Hit (fun _ => 3) bad (nizkStart 5 6) tr) := by
  obtain ⟨ext, bad, h1, h2⟩ := C44_partial exParams exParams_good exInst exInst_fits [] (.of_ne (by simp)) 0
  obtain ⟨tr, h⟩ := exAccepts
  have h3 := h2 _ exProof 5 6 tr rfl h
  have h0 : Nat.clog 2 1 = 0 := by decide
  rw [exInst_t, show exInst.numConstraints = 1 from rfl, h0] at h3
  exact ⟨ext, bad, h1, tr, h, h3⟩

/-- The constraint `1 · 0 = 1`. -/
def exFalse : Inst F17 := ⟨1, 1, 1, [[(1, .input 0)]], [[]], [[(1, .input 0)]]⟩

theorem exFalse_t : exFalse.t = 1 := (by decide : padTo (max 1 1) = 1)

theorem exFalse_fits : exFalse.Fits := by
  unfold Inst.Fits Ml.Fits
  rw [exFalse_t]
  have : Nat.clog 2 1 = 0 := by decide
  simp [exFalse, col, this]

/-- The proof of zeros, with the point 0, is accepted at the challenges drawn if these are all 0. -/
theorem exFalse_accepts : ∃ tr, AcceptsAt (tape (G := V5) (List.ofFn fun _ : Fin 12 => (0 : F17))) exParams exFalse []
    ⟨zeroSat 0 1, [], [0]⟩ 5 6 tr := by
  have h0 : Nat.clog 2 1 = 0 := by decide
  have h1 : Nat.clog 2 exFalse.numConstraints = 0 := h0
  have h2 : Nat.clog 2 exFalse.t = 0 := by rw [exFalse_t]; exact h0
  have hs : ∃ tr, satVerify (tape (G := V5) (List.ofFn fun _ : Fin 12 => (0 : F17))) exParams exFalse [] (zeroSat 0 1) (0, 0, 0)
      (nizkStart 5 6) = .ok (([], [0]), tr) := by
    unfold satVerify
    simp only [h1, h2, exFalse_t]
    exact ⟨_, rfl⟩
  obtain ⟨tr, h⟩ := hs
  exact ⟨tr, 0, 0, 0, by decide, by decide, by decide, h⟩

/-- But it is accepted for at most `72 · 17 ^ 11` of the `17 ^ 12` sequences of challenges. -/
example (acc : Finset (Fin 12 → F17))
    (hacc : ∀ f ∈ acc, ∃ tr, AcceptsAt (tape (G := V5) (List.ofFn f)) exParams exFalse [] ⟨zeroSat 0 1, [], [0]⟩ 5 6 tr) :
    acc.card ≤ 12 * 6 * 17 ^ 11 := by
  have h0 : Nat.clog 2 1 = 0 := by decide
  have := C44_count_partial exParams exParams_good exFalse exFalse_fits [] (.of_ne (by simp)) 0 (by
    rintro ⟨aux, h1, h2⟩
    have := h2 0 (Nat.lt_succ_self 0)
    simp [exFalse, rowVal, assign] at this) 5 6 12
    (by rw [exFalse_t, show exFalse.numConstraints = 1 from rfl, h0]) (fun _ => ⟨zeroSat 0 1, [], [0]⟩) (fun _ => rfl)
    (by
      rintro f g tr tr' ⟨a, b, c, ha, hb, hc, h⟩ ⟨a', b', c', ha', hb', hc', h'⟩ i hi
      obtain rfl := Option.some.inj (ha.symm.trans ha')
      obtain rfl := Option.some.inj (hb.symm.trans hb')
      obtain rfl := Option.some.inj (hc.symm.trans hc')
      exact (Causal.sat exParams exFalse [] (zeroSat 0 1) (a, b, c)).before f g i hi h h') acc hacc
  rwa [ZMod.card] at this

end Zkp.Spartan
