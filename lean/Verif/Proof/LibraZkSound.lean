/- Soundness of the steps of Libra's GKR verifier with hiding, for commitments to which linear functionals assign the
committed values. -/
import Verif.Proof.LibraZk
import Verif.Props.LibraSound
import Verif.Props.SpartanSound

namespace Zkp.Lz

open Zkp.Ml Zkp.Spartan Zkp.Sc Zkp.Gkr Zkp.Hx Polynomial
open Zkp.Cp (evalVerify logDotVerify bind_inv say_inv challenge_inv ensure_inv orPanic_inv pure_inv)

set_option linter.unusedSectionVars false
set_option linter.unusedSimpArgs false

variable {F : Type} [Field F] {G : Type} [AddCommGroup G] [Module F G] [DecidableEq F] [DecidableEq G]

/-! ### The parts -/

set_option maxHeartbeats 1600000 in
theorem eval_sound (ch : Oracle F G) (params : PcParams G) (ry : List F) (commits : List G) (commitRy : G)
    (proof : DotProof F G) (k : Nat) (hk : proof.L.length = k) (u : G) (hu : params.gen1.generators = [u])
    (φ : Nat → G →ₗ[F] F) (hφ : Reads (u :: params.genN.generators) params.gen1.h φ)
    (tr tr' : Transcript F G) (h : evalVerify ch params ry commits commitRy proof tr = .ok (true, tr')) :
    ∃ a b, At ch tr tr' a b ∧ a.length = 2 * k + 4 ∧ b.length = k + 1 ∧
      ((∀ y ∈ ry, y ≠ 1) → HitFrom ch (badInner φ k (ry.drop (ry.length / 2))) tr tr' ∨
        balance φ (ry.drop (ry.length / 2))
          (commitVec commits (evalEq (ry.take (ry.length / 2))) params.gen1.h (0 : F) + commitRy) = 0) := by
  obtain ⟨y2, hy2⟩ : ∃ y2, y2 = ry.drop (ry.length / 2) := ⟨_, rfl⟩
  rw [← hy2]
  unfold evalVerify logDotVerify at h
  simp only [← hy2] at h
  obtain ⟨lz, hlz⟩ : ∃ lz, lz = commitVec commits (evalEq (ry.take (ry.length / 2))) params.gen1.h (0 : F) := ⟨_, rfl⟩
  rw [← hlz] at h ⊢
  obtain ⟨_, _, h1, h⟩ := bind_inv h
  obtain rfl := say_inv h1
  obtain ⟨_, _, h1, h⟩ := bind_inv h
  obtain rfl := say_inv h1
  obtain ⟨⟨bS, gHat, gammaHat⟩, tr1, hbv, h⟩ := bind_inv h
  obtain ⟨_, _, h1, h⟩ := bind_inv h
  obtain rfl := say_inv h1
  obtain ⟨_, _, h1, h⟩ := bind_inv h
  obtain rfl := say_inv h1
  obtain ⟨c, _, h1, h⟩ := bind_inv h
  obtain ⟨hc, rfl⟩ := challenge_inv h1
  obtain ⟨g, _, h1, h⟩ := bind_inv h
  obtain ⟨hg, rfl⟩ := orPanic_inv h1
  obtain ⟨hfin, rfl⟩ := pure_inv h
  simp only [decide_eq_true_eq] at hfin
  rw [hu] at hg
  obtain rfl : u = g := by simpa using hg
  unfold bulletVerify at hbv
  obtain ⟨_, _, h1, hbv⟩ := bind_inv hbv
  obtain ⟨hLR, rfl⟩ := ensure_inv h1
  obtain ⟨xs, tr2, hxs, hbv⟩ := bind_inv hbv
  obtain ⟨_, _, h1, hbv⟩ := bind_inv hbv
  obtain ⟨hlb, rfl⟩ := ensure_inv h1
  obtain ⟨_, _, h1, hbv⟩ := bind_inv hbv
  obtain ⟨hlg, rfl⟩ := ensure_inv h1
  obtain ⟨hres, rfl⟩ := pure_inv hbv
  simp only [decide_eq_true_eq] at hLR hlb hlg
  simp only [Prod.mk.injEq] at hres
  obtain ⟨hbS, hgH, hgam⟩ := hres
  rw [hk] at hlb hlg
  have p0 := ((At.refl ch tr).pt "Cx" lz).pt "Cy" commitRy
  obtain ⟨tr0, htr0⟩ : ∃ t, t = tr ++ [Msg.pt "Cx" lz] ++
    [Msg.pt "Cy" commitRy] := ⟨_, rfl⟩
  rw [← htr0] at p0 hxs
  have hb2 : ((evalEq y2).take (2 ^ k)).length = 2 ^ k := by rw [List.length_take]; omega
  obtain ⟨a0, s1, s2, s3, s4⟩ := bulletChallenges_at ch k _ _ hk (by omega) xs _ _ hxs
  have hs : bulletS xs = Bp.sRec xs := Bp.ippS_eq xs s4
  have hsl : (Bp.sRec xs).length = 2 ^ k := by rw [Bp.sRec_length, s3]
  rw [hs, hsl] at hbS hgH
  change dot ((evalEq y2).take (2 ^ k)) (Bp.sRec xs) = bS at hbS
  have mk : ∀ a, At ch tr0 tr2 a xs → a.length = 2 * k →
      At ch tr (tr2 ++ [.pt "delta" proof.delta] ++ [.pt "beta" proof.beta] ++ [.chal "c"])
        (lz :: commitRy :: a ++ [proof.delta, proof.beta]) (xs ++ [c]) := by
    intro a ha _
    have := (((p0.trans ha).pt "delta" proof.delta).pt "beta" proof.beta).chal "c"
    rw [hc] at this
    simpa using this
  refine ⟨_, _, mk a0 s1 s2, by simp [s2], by simp [s3], fun hy => ?_⟩
  by_cases hP : balance φ y2 (lz + commitRy) = 0
  · exact Or.inr hP
  have hb0 : ∃ j, ((evalEq y2).take (2 ^ k)).getD j 0 ≠ 0 := by
    refine ⟨0, ?_⟩
    rw [getD_take _ _ _ (by positivity), Zkp.Cp.evalEq_getD _ _ (by positivity)]
    exact eqWeight_zero_ne y2 fun x hx => hy x (List.mem_of_mem_drop (hy2 ▸ hx))
  obtain ⟨a, i1, i2, i3, i4, i5⟩ := bulletChallenges_sound ch (balance φ y2) k _ _ hk (by omega) (lz + commitRy)
    ((evalEq y2).take (2 ^ k)) hb2 hb0 hP xs _ _ hxs
  left
  rcases i5 with i5 | ⟨i5, i6, i7⟩
  · refine i5.lift p0 (fun ps vs => ?_) (by simp only [List.append_assoc]; exact List.prefix_append _ _)
    simp [badInner]
  · have hgamma : lz + commitRy + msm proof.L (xs.map fun x => x * x) + msm proof.R (xs.map fun x => x⁻¹ * x⁻¹) = gammaHat := by
      rw [← hgam]; abel
    rw [hgamma] at i5 i7
    rw [hbS] at i6 i7
    have hgz : balance φ y2 (gHat + bS • u) = 0 := by
      rw [map_add, map_smul, balance_u hφ, smul_eq_mul, mul_one, ← hgH, map_msm, ← hbS,
        Bp.dot_eq_sum' _ _ (2 ^ k) (by rw [hb2]), List.length_take, Nat.min_eq_left hlg, ← Finset.sum_add_distrib]
      apply Finset.sum_eq_zero
      intro j hj
      have hj := Finset.mem_range.1 hj
      have hjy : j < 2 ^ y2.length := by rw [← evalEq_length]; omega
      rw [getD_take _ _ _ hj, Zkp.Cp.evalEq_getD _ _ hjy]
      have : ((params.genN.generators).take (2 ^ k)).getD j 0 = params.genN.generators.getD j 0 := by
        simp [List.getD_eq_getElem?_getD, List.getElem?_take, hj]
      rw [this, balance_g hφ y2 j (by omega) hjy]
      ring
    have e := congrArg (balance φ y2) hfin
    simp only [map_add _ (bS • _) proof.delta, map_add _ (proof.z1 • _) _, map_smul, hgz, balance_h hφ, map_add,
      smul_eq_mul, mul_zero, add_zero] at e
    have p1 := ((p0.trans i1).pt "delta" proof.delta).pt "beta" proof.beta
    refine ⟨_, "c", _, _, p1, List.prefix_rfl, ?_⟩
    rw [hc]
    have hne : bS * balance φ y2 gammaHat ≠ 0 := mul_ne_zero i6 i5
    have hm := lin_one hne (show c * (bS * balance φ y2 gammaHat) +
      (bS * balance φ y2 proof.beta + balance φ y2 proof.delta) = c * 0 + 0 by linear_combination e)
    have := i7 [proof.delta, proof.beta] []
    simp only [badInner, List.nil_append, List.cons_append, List.append_assoc, List.getD_cons_zero, List.getD_cons_succ,
      List.drop_succ_cons, List.drop_zero]
    rw [List.append_nil] at this
    rw [this]
    simpa [badX] using hm

/-- The challenges of a product proof for which a commitment outside `S` is opened. -/
noncomputable def badSpan (S : Submodule F G) (ps : List G) (_ : List F) : Finset F :=
  (fewRoots 1 fun c => c • ps.getD 0 0 + ps.getD 3 0 ∈ S) ∪ fewRoots 1 fun c => c • ps.getD 1 0 + ps.getD 4 0 ∈ S

theorem badSpan_card (S : Submodule F G) (ps : List G) (vs : List F) : (badSpan S ps vs).card ≤ 2 :=
  (Finset.card_union_le _ _).trans (Nat.add_le_add (fewRoots_card _ _) (fewRoots_card _ _))

/-- The factors of a proved product are commitments to one scalar. -/
theorem product_span {ch : Oracle F G} {params : MultiParams G} {proof : ProdProof F G} {va vb prod : G}
    (S : Submodule F G) (hS : ∀ x s : F, commitVec params.generators [x] params.h s ∈ S)
    {tr tr' : Transcript F G} (h : productVerify ch params proof va vb prod tr = .ok (true, tr')) :
    HitFrom ch (badSpan S) tr tr' ∨ (va ∈ S ∧ vb ∈ S) := by
  unfold productVerify at h
  obtain ⟨z1, _, h1, h⟩ := bind_inv h
  obtain ⟨_, rfl⟩ := orPanic_inv h1
  obtain ⟨z2, _, h1, h⟩ := bind_inv h
  obtain ⟨_, rfl⟩ := orPanic_inv h1
  obtain ⟨z3, _, h1, h⟩ := bind_inv h
  obtain ⟨_, rfl⟩ := orPanic_inv h1
  obtain ⟨z4, _, h1, h⟩ := bind_inv h
  obtain ⟨_, rfl⟩ := orPanic_inv h1
  obtain ⟨z5, _, h1, h⟩ := bind_inv h
  obtain ⟨_, rfl⟩ := orPanic_inv h1
  obtain ⟨_, _, h1, h⟩ := bind_inv h
  obtain rfl := say_inv h1
  obtain ⟨_, _, h1, h⟩ := bind_inv h
  obtain rfl := say_inv h1
  obtain ⟨_, _, h1, h⟩ := bind_inv h
  obtain rfl := say_inv h1
  obtain ⟨_, _, h1, h⟩ := bind_inv h
  obtain rfl := say_inv h1
  obtain ⟨_, _, h1, h⟩ := bind_inv h
  obtain rfl := say_inv h1
  obtain ⟨_, _, h1, h⟩ := bind_inv h
  obtain rfl := say_inv h1
  obtain ⟨c, _, h1, h⟩ := bind_inv h
  obtain ⟨hc, rfl⟩ := challenge_inv h1
  obtain ⟨hb, rfl⟩ := pure_inv h
  simp only [Bool.and_eq_true, decide_eq_true_eq] at hb
  obtain ⟨⟨q1, q2⟩, -⟩ := hb
  have p0 := ((((((At.refl ch tr).pt "X" va).pt "Y" vb).pt "Z" prod).pt "alpha" proof.alpha).pt "beta" proof.beta).pt
    "delta" proof.delta
  have m1 : c • va + proof.alpha ∈ S := by rw [add_comm, q1]; exact hS _ _
  have m2 : c • vb + proof.beta ∈ S := by rw [add_comm, q2]; exact hS _ _
  by_cases h1 : va ∈ S
  · by_cases h2 : vb ∈ S
    · exact Or.inr ⟨h1, h2⟩
    · exact Or.inl ⟨_, "c", _, _, p0, List.prefix_rfl, Finset.mem_union_right _ (by rw [hc]; exact span_one h2 m2)⟩
  · exact Or.inl ⟨_, "c", _, _, p0, List.prefix_rfl, Finset.mem_union_left _ (by rw [hc]; exact span_one h1 m1)⟩

/-! ### One layer -/

/-- The bad challenges of one layer and, in `K`, of what follows, given the two points and the points said in the
product proof. -/
noncomputable def badLayer (φ φ3 : Nat → G →ₗ[F] F) (S : Submodule F G) (x : List Gate × List F × Nat) (gu gv : List F)
    (alpha beta : F) (K : List F → List F → List G → List G → List F → Finset F) : List G → List F → Finset F :=
  after (4 * x.2.2) (7 * x.2.2) (badSc φ3 (φ 0) S {1} 2 3 libraOne (tablesOne x gu gv alpha beta)) fun _ b1 =>
  after (4 * x.2.2) (7 * x.2.2 + 1) (fun ps vs => badSc φ3 (φ 0) S {1} 2 3 (libraTwo (mle x.2.1 (scPoints b1)))
    (tablesTwo x gu gv (scPoints b1) alpha beta) (ps.drop 1) vs) fun _ b2 =>
  after 1 7 (fun ps vs => badProduct (φ 0) (ps.drop 1) vs ∪ badSpan S (ps.drop 1) vs) fun a3 _ =>
  after 1 3 (badEq (φ 0)) fun _ _ => K (scPoints b1) (scPoints b2) a3

theorem badLayer_card (φ φ3 : Nat → G →ₗ[F] F) (S : Submodule F G) (x : List Gate × List F × Nat) (gu gv : List F)
    (alpha beta : F) (K : List F → List F → List G → List G → List F → Finset F)
    (hK : ∀ ru rv a3 ps vs, (K ru rv a3 ps vs).card ≤ 6) (ps : List G) (vs : List F) :
    (badLayer φ φ3 S x gu gv alpha beta K ps vs).card ≤ 6 := by
  have r : ∀ P : F → Prop, (fewRoots 1 P).card ≤ 6 := fun P => (fewRoots_card 1 P).trans (by omega)
  have r' : ∀ (ps : List G) (vs : List F), (badProduct (φ 0) ps vs ∪ badSpan S ps vs).card ≤ 6 := fun ps vs =>
    (Finset.card_union_le _ _).trans ((Nat.add_le_add (fewRoots_card 1 _) (badSpan_card S ps vs)).trans (by omega))
  unfold badLayer
  exact after_card (fun _ _ => badSc_card _ _ _ _ _ _ 6 (by simp) (by simp) _ _ _ _) (fun _ _ =>
    after_card (fun _ _ => badSc_card _ _ _ _ _ _ 6 (by simp) (by simp) _ _ _ _) fun _ _ =>
    after_card (fun _ _ => r' _ _) fun _ _ => after_card (fun _ _ => r _) fun _ _ => hK _ _ _) _ _

set_option maxHeartbeats 1600000 in
theorem zkLayer_sound (params : Params G) (u : G) (hu : params.gen1.generators = [u])
    (h3 : params.gen3.generators.length = 3) (φ φ3 : Nat → G →ₗ[F] F)
    (hφ : Reads (u :: params.pc.genN.generators) params.gen1.h φ)
    (hφ3 : Reads params.gen3.generators params.gen3.h φ3) (S : Submodule F G) (hS : S = Submodule.span F {u, params.gen1.h})
    (ch : Oracle F G) (p : ZkLayer F G) (raw : List (Nat × Nat × Nat)) (v : List F) (n : Nat) (gu gv : List F)
    (alpha beta : F) (claim : G) (h : gu.length = gv.length) (hv : v.length = 2 ^ n) (hk : raw.length ≤ 2 ^ gu.length)
    (hl : ∀ g ∈ raw, Legal (2 ^ n) g) (ru rv : List F) (tr tr' : Transcript F G)
    (hrun : zkLayerVerify ch params p (gatesOf raw) n gu gv alpha beta claim tr = .ok ((ru, rv), tr')) :
    ∃ a3, a3.getD 1 0 = p.x ∧ a3.getD 2 0 = p.y ∧ ru.length = n ∧ rv.length = n ∧ (∃ a b, At ch tr tr' a b ∧ b.length = 8 * n + 2) ∧
      ∀ K tr'', tr' <+: tr'' →
        (HitFrom ch (K ru rv a3) tr' tr'' → HitFrom ch (badLayer φ φ3 S (gatesOf raw, v, n) gu gv alpha beta K) tr tr'') ∧
        (φ 0 claim ≠ alpha * mle (raw.map (gateValue v)) gu + beta * mle (raw.map (gateValue v)) gv →
          HitFrom ch (badLayer φ φ3 S (gatesOf raw, v, n) gu gv alpha beta K) tr tr'' ∨
          ((φ 0 p.x ≠ mle v ru ∨ φ 0 p.y ≠ mle v rv) ∧ p.x ∈ S ∧ p.y ∈ S ∧ (∀ r ∈ ru, r ≠ 1) ∧ ∀ r ∈ rv, r ≠ 1)) := by
  unfold zkLayerVerify at hrun
  obtain ⟨⟨ru', fin1⟩, tr1, hsc1, hrun⟩ := bind_inv hrun
  rw [asserted_ok] at hsc1
  obtain ⟨_, _, h1, hrun⟩ := bind_inv hrun
  obtain rfl := say_inv h1
  obtain ⟨⟨rv', fin2⟩, tr2, hsc2, hrun⟩ := bind_inv hrun
  rw [asserted_ok] at hsc2
  obtain ⟨_, _, h1, hrun⟩ := bind_inv hrun
  obtain rfl := say_inv h1
  obtain ⟨ok, tr3, hprod, hrun⟩ := bind_inv hrun
  obtain ⟨_, _, h1, hrun⟩ := bind_inv hrun
  obtain ⟨rfl, rfl⟩ := ensure_inv h1
  obtain ⟨⟨add', mult'⟩, _, h1, hrun⟩ := bind_inv hrun
  obtain ⟨hops, rfl⟩ := orPanic_inv h1
  obtain ⟨ok, tr4, heq, hrun⟩ := bind_inv hrun
  obtain ⟨_, _, h1, hrun⟩ := bind_inv hrun
  obtain ⟨rfl, rfl⟩ := ensure_inv h1
  obtain ⟨e, rfl⟩ := pure_inv hrun
  obtain ⟨rfl, rfl⟩ : ru' = ru ∧ rv' = rv := by simpa using e
  -- values of commitments to one scalar
  have hcom : ∀ x e : F, commitVec params.gen1.generators [x] params.gen1.h e = x • u + e • params.gen1.h := by
    intro x e; rw [hu]; simp [commitVec, msm]
  have e0 : φ 0 u = 1 := hφ.gen 0 0 (by simp)
  have hψ : ∀ x e : F, φ 0 (commitVec params.gen1.generators [x] params.gen1.h e) = x := by
    intro x e; rw [hcom, map_add, map_smul, map_smul, e0, hφ.blind]; simp
  have hSm : ∀ x e : F, commitVec params.gen1.generators [x] params.gen1.h e ∈ S := by
    intro x e
    rw [hcom, hS]
    exact Submodule.add_mem _ (Submodule.smul_mem _ _ (Submodule.subset_span (by simp)))
      (Submodule.smul_mem _ _ (Submodule.subset_span (by simp)))
  -- the tables
  have hg := gatesOf_ok raw (2 ^ gu.length) (2 ^ n) hk hl
  obtain ⟨mul1, add1, add2, i1, l1, l2, l3, _⟩ := C60_phase_one gu gv (gatesOf raw) v n alpha beta h hv hg
  obtain ⟨_, _, _, i1', hsum⟩ := C60_claim gu gv raw v n alpha beta h hv hk hl
  rw [i1] at i1'
  obtain ⟨rfl, rfl, rfl⟩ : _ ∧ _ ∧ _ := by simpa using i1'
  have t1 : tablesOne (gatesOf raw, v, n) gu gv alpha beta = [v, mul1, add1, add2] := by simp only [tablesOne, i1]
  have k1 : TablesOk n [v, mul1, add1, add2] := ⟨by simp, by simp [hv, l1, l2, l3]⟩
  obtain ⟨a1, b1, q1, la1, lb1, hru, hrul, s1⟩ := scRounds_sound libraOne_deg le_rfl rfl ch params.gen1 params.gen3 φ3
    (φ 0) S {1} hφ3 h3 hψ hSm _ _ _ _ _ _ _ _ hsc1 [v, mul1, add1, add2] k1
  obtain ⟨mul, add, i2, m1, m2, _⟩ := C60_phase_two gu gv ru' (gatesOf raw) v n alpha beta h hv hrul hg
  obtain ⟨_, _, _, _, _, f1, f2, f3⟩ := C60_reduction gu gv ru' (gatesOf raw) v n alpha beta h hv hrul hg
  rw [i1] at f1
  obtain ⟨rfl, rfl, rfl⟩ : _ ∧ _ ∧ _ := by simpa using f1
  rw [i2] at f2
  obtain ⟨rfl, rfl⟩ : _ ∧ _ := by simpa using f2
  have t2 : tablesTwo (gatesOf raw, v, n) gu gv ru' alpha beta = [v, mul, add] := by simp only [tablesTwo, i2]
  have k2 : TablesOk n [v, mul, add] := ⟨by simp, by simp [hv, m1, m2]⟩
  obtain ⟨a2, b2, q2', la2, lb2, hrv, hrvl, s2⟩ := scRounds_sound (libraTwo_deg (mle v ru')) le_rfl rfl ch params.gen1
    params.gen3 φ3 (φ 0) S {1} hφ3 h3 hψ hSm _ _ _ _ _ _ _ _ hsc2 [v, mul, add] k2
  obtain ⟨_, _, g1, g2, _, _⟩ := C60_operators gu gv ru' rv' (gatesOf raw) v n alpha beta h hv hrul hrvl hg
  rw [i2] at g1
  obtain ⟨rfl, rfl⟩ : _ ∧ _ := by simpa using g1
  rw [g2] at hops
  obtain ⟨rfl, rfl⟩ : mle add rv' = add' ∧ mle mul rv' = mult' := by simpa using hops
  have p2 := (At.refl ch tr1).pt "comm_x" p.x
  have q2 := p2.trans q2'
  obtain ⟨c3, q3', s3⟩ := product_sound (φ 0) hψ (hφ.blind 0) hprod
  have s3' := product_span S hSm hprod
  have p3 := (At.refl ch tr2).pt "comm_y" p.y
  have q3 := p3.trans q3'
  obtain ⟨c4, q4, s4⟩ := eq_sound (φ 0) (hφ.blind 0) heq
  simp only [List.nil_append, List.cons_append] at q2 q3
  refine ⟨[p.y, p.x, p.y, p.z, p.prod.alpha, p.prod.beta, p.prod.delta], rfl, rfl, hrul, hrvl,
    ⟨_, _, q1.trans (q2.trans (q3.trans q4)), by simp [lb1, lb2]; omega⟩, fun K tr'' f4 => ?_⟩
  have f3' := q4.pre.trans f4
  have f2' := q3.pre.trans f3'
  have f1' := q2.pre.trans f2'
  have la2' : (p.x :: a2).length = 7 * n + 1 := by simp [la2]
  unfold badLayer
  simp only [t1]
  refine ⟨fun hit => ?_, fun hne => ?_⟩
  · refine HitFrom.second q1 la1 lb1 (HitFrom.second q2 la2' lb2 (HitFrom.second q3 rfl rfl (HitFrom.second q4 rfl rfl ?_)))
    rw [← hru, ← hrv]
    exact hit
  rw [← hsum] at hne
  rcases s1 (by rw [total, tableLen_eq k1]; exact hne) with hit | ⟨n1, -, x1⟩
  · exact Or.inl (hit.first q1 lb1 f1')
  have hne2 : φ 0 fin1 ≠ total (libraTwo (mle v ru')) [v, mul, add] := by
    rw [total, tableLen_eq k2]
    intro hc
    apply n1
    rw [hc]
    exact f3.symm
  rcases s2 hne2 with hit | ⟨n2, -, x2⟩
  · left
    refine HitFrom.second q1 la1 lb1 ?_
    rw [← hru, t2]
    exact (hit.lift (B := fun ps vs => badSc φ3 (φ 0) S {1} 2 3 (libraTwo (mle v ru')) [v, mul, add] (ps.drop 1) vs) p2
      (fun ps vs => by simp) List.prefix_rfl).first q2 lb2 f2'
  have hprodHit : ∀ B : List G → List F → Finset F, HitFrom ch B (tr2 ++ [Msg.pt "comm_y" p.y]) tr3 →
      (∀ ps vs, B ps vs ⊆ badProduct (φ 0) ps vs ∪ badSpan S ps vs) →
      HitFrom ch (badLayer φ φ3 S (gatesOf raw, v, n) gu gv alpha beta K) tr tr'' := by
    intro B hit hB
    refine HitFrom.second q1 la1 lb1 (HitFrom.second q2 la2' lb2 ?_)
    exact (hit.lift (B := fun ps vs => badProduct (φ 0) (ps.drop 1) vs ∪ badSpan S (ps.drop 1) vs) p3
      (fun ps vs => by simpa using hB ps vs) List.prefix_rfl).first q3 rfl f3'
  unfold badLayer at hprodHit
  simp only [t1] at hprodHit
  rcases s3 with hit | s3
  · exact Or.inl (hprodHit _ hit fun _ _ => Finset.subset_union_left)
  rcases s3' with hit | ⟨mx, my⟩
  · exact Or.inl (hprodHit _ hit fun _ _ => Finset.subset_union_right)
  rcases s4 with hit | s4
  · left
    exact HitFrom.second q1 la1 lb1 (HitFrom.second q2 la2' lb2 (HitFrom.second q3 rfl rfl (hit.first q4 rfl f4)))
  refine Or.inr ⟨?_, mx, my, fun r hr => by simpa using x1 r hr, fun r hr => by simpa using x2 r hr⟩
  by_contra hc
  push Not at hc
  apply n2
  rw [← s4, map_add, map_smul, map_smul, map_add, s3, hc.1, hc.2]
  simp only [libraTwo, List.map_cons, List.getD_cons_zero, List.getD_cons_succ, smul_eq_mul]
  ring

/-! ### All layers -/

/-- The bad challenges of the layers and, in `fin`, of what follows at the last two points. -/
noncomputable def badZk (φ φ3 : Nat → G →ₗ[F] F) (S : Submodule F G) (fin : List F → List F → List G → List F → Finset F) :
    List (List Gate × List F × Nat) → List F → List F → F → F → List G → List F → Finset F
  | [], _, _, _, _ => fun _ _ => ∅
  | x :: rest, gu, gv, alpha, beta => badLayer φ φ3 S x gu gv alpha beta fun ru rv a3 =>
    match rest with
    | [] => fin ru rv
    | _ :: _ =>
      after 1 0 (fun _ _ => {0}) fun _ al =>
      after 1 0 (fun _ _ => fewRoots 1 fun b => b * (φ 0 (a3.getD 2 0) - mle x.2.1 rv) +
        al.getD 0 0 * (φ 0 (a3.getD 1 0) - mle x.2.1 ru) = b * 0 + 0) fun _ be =>
      badZk φ φ3 S fin rest ru rv (al.getD 0 0) (be.getD 0 0)

theorem badZk_card (φ φ3 : Nat → G →ₗ[F] F) (S : Submodule F G) (fin : List F → List F → List G → List F → Finset F)
    (hf : ∀ ru rv ps vs, (fin ru rv ps vs).card ≤ 6) (items : List (List Gate × List F × Nat)) (gu gv : List F)
    (alpha beta : F) (ps : List G) (vs : List F) : (badZk φ φ3 S fin items gu gv alpha beta ps vs).card ≤ 6 := by
  induction items generalizing gu gv alpha beta ps vs with
  | nil => simp [badZk]
  | cons x rest ih =>
    unfold badZk
    refine badLayer_card φ φ3 S x gu gv alpha beta _ (fun ru rv a3 ps vs => ?_) ps vs
    cases rest with
    | nil => exact hf _ _ _ _
    | cons y ys =>
      exact after_card (fun _ _ => by simp) (fun _ _ => after_card (fun _ _ => (fewRoots_card 1 _).trans (by omega))
        fun _ _ => ih _ _ _ _) _ _

set_option maxHeartbeats 1600000 in
theorem zkLayers_sound (params : Params G) (u : G) (hu : params.gen1.generators = [u])
    (h3 : params.gen3.generators.length = 3) (φ φ3 : Nat → G →ₗ[F] F)
    (hφ : Reads (u :: params.pc.genN.generators) params.gen1.h φ)
    (hφ3 : Reads params.gen3.generators params.gen3.h φ3) (S : Submodule F G) (hS : S = Submodule.span F {u, params.gen1.h})
    (ch : Oracle F G) (items : List (List Gate × List F × Nat)) (hi : items ≠ []) (proofs : List (ZkLayer F G))
    (top bottom gu gv : List F) (alpha beta : F) (claim : G) (h : gu.length = gv.length) (hk : top.length ≤ 2 ^ gu.length)
    (hw : Wires top items bottom) (hlen : proofs.length = items.length) (ru rv : List F) (X Y : G) (tr tr' : Transcript F G)
    (hrun : zkLayersVerify ch params proofs (items.map fun x => (x.1, x.2.2)) gu gv alpha beta claim tr =
      .ok ((ru, rv, X, Y), tr')) :
    bottom.length = 2 ^ ru.length ∧ bottom.length = 2 ^ rv.length ∧
      (∃ a b, At ch tr tr' a b ∧ b.length + 2 = (items.map fun x => 8 * x.2.2 + 4).sum) ∧
      ∀ fin tr'', tr' <+: tr'' →
        (HitFrom ch (fin ru rv) tr' tr'' → HitFrom ch (badZk φ φ3 S fin items gu gv alpha beta) tr tr'') ∧
        (φ 0 claim ≠ alpha * mle top gu + beta * mle top gv →
          HitFrom ch (badZk φ φ3 S fin items gu gv alpha beta) tr tr'' ∨
          ((φ 0 X ≠ mle bottom ru ∨ φ 0 Y ≠ mle bottom rv) ∧ X ∈ S ∧ Y ∈ S ∧ (∀ r ∈ ru, r ≠ 1) ∧ ∀ r ∈ rv, r ≠ 1)) := by
  induction items generalizing proofs top gu gv alpha beta claim tr with
  | nil => exact absurd rfl hi
  | cons x rest ih =>
    obtain ⟨gates, v, n⟩ := x
    obtain ⟨⟨raw, k, hg, hv, hl, htop⟩, hrest⟩ := hw
    simp only at hg hv hl htop hrest
    subst hg
    cases proofs with
    | nil => simp at hlen
    | cons p ps =>
      rw [List.map_cons] at hrun
      unfold zkLayersVerify at hrun
      obtain ⟨⟨ru1, rv1⟩, tr1, h1, hrun⟩ := bind_inv hrun
      have hk' : raw.length ≤ 2 ^ gu.length := by rw [htop] at hk; simp at hk; omega
      rw [htop, mle_padded, mle_padded]
      obtain ⟨a3, ax, ay, lu, lv, ⟨a0, b0, q0, lb0⟩, hs⟩ := zkLayer_sound params u hu h3 φ φ3 hφ hφ3 S hS ch p raw v n gu gv alpha beta claim
        h hv hk' hl ru1 rv1 tr tr1 h1
      cases ps with
      | nil =>
        obtain ⟨e, rfl⟩ := pure_inv hrun
        obtain ⟨rfl, rfl, rfl, rfl⟩ : ru1 = ru ∧ rv1 = rv ∧ p.x = X ∧ p.y = Y := by simpa using e
        cases rest with
        | cons y ys => simp at hlen
        | nil =>
          obtain rfl := hrest
          refine ⟨by rw [lu, hv], by rw [lv, hv], ⟨a0, b0, q0, by simp [lb0]⟩, fun fin tr'' hp => ?_⟩
          exact hs (fun ru rv _ => fin ru rv) tr'' hp
      | cons p' ps =>
        obtain ⟨al, ta, h2, hrun⟩ := bind_inv hrun
        obtain ⟨hal, hta⟩ := challenge_inv h2
        obtain ⟨be, tb, h2, hrun⟩ := bind_inv hrun
        obtain ⟨hbe, htb⟩ := challenge_inv h2
        have qa := (At.refl ch tr1).chal "challenge_alpha"
        rw [hal, hta, List.nil_append] at qa
        have qb := (At.refl ch ta).chal "challenge_beta"
        rw [hbe, htb, List.nil_append] at qb
        cases rest with
        | nil => simp at hlen
        | cons y ys =>
          obtain ⟨b1, b2, ⟨a5, b5, q5, lb5⟩, b4⟩ := ih (by simp) (p' :: ps) v ru1 rv1 al be _ (by rw [lu, lv]) (by rw [lu, hv]) hrest
            (by simpa using hlen) tb hrun
          refine ⟨b1, b2, ⟨_, _, q0.trans (qa.trans (qb.trans q5)), by
            rw [List.map_cons, List.sum_cons, ← lb5]; simp only [List.length_append, List.length_singleton, lb0]; omega⟩, fun fin tr'' hp => ?_⟩
          obtain ⟨c1, c2⟩ := b4 fin tr'' hp
          have fb := q5.pre.trans hp
          have fa := qb.pre.trans fb
          obtain ⟨s1, s2⟩ := hs (fun ru rv a3 => after 1 0 (fun _ _ => {0}) fun _ al =>
            after 1 0 (fun _ _ => fewRoots 1 fun b => b * (φ 0 (a3.getD 2 0) - mle v rv) +
              al.getD 0 0 * (φ 0 (a3.getD 1 0) - mle v ru) = b * 0 + 0) fun _ be =>
            badZk φ φ3 S fin (y :: ys) ru rv (al.getD 0 0) (be.getD 0 0)) tr'' (qa.pre.trans fa)
          change _ → HitFrom ch (badZk φ φ3 S fin ((gatesOf raw, v, n) :: y :: ys) gu gv alpha beta) tr tr'' at s1
          change _ → HitFrom ch (badZk φ φ3 S fin ((gatesOf raw, v, n) :: y :: ys) gu gv alpha beta) tr tr'' ∨ _ at s2
          have tail : HitFrom ch (badZk φ φ3 S fin (y :: ys) ru1 rv1 al be) tb tr'' →
              HitFrom ch (badZk φ φ3 S fin ((gatesOf raw, v, n) :: y :: ys) gu gv alpha beta) tr tr'' := fun hit =>
            s1 (HitFrom.second qa rfl rfl (HitFrom.second qb rfl rfl hit))
          refine ⟨fun hit => tail (c1 hit), fun hne => ?_⟩
          rcases s2 hne with hit | ⟨hw1, -, -, -, -⟩
          · exact Or.inl hit
          by_cases hc : φ 0 (al • p.x + be • p.y) = al * mle v ru1 + be * mle v rv1
          · left
            rw [map_add, map_smul, map_smul, smul_eq_mul, smul_eq_mul] at hc
            apply s1
            by_cases hy : φ 0 p.y = mle v rv1
            · have hx : φ 0 p.x ≠ mle v ru1 := hw1.resolve_right fun h => h hy
              have ha : al = 0 := by
                have : al * (φ 0 p.x - mle v ru1) = 0 := by rw [hy] at hc; linear_combination hc
                exact (mul_eq_zero.1 this).resolve_right (sub_ne_zero.2 hx)
              exact HitFrom.first ⟨tr1, _, [], [], At.refl _ _, by rw [hta], by rw [hal, ha]; simp⟩ qa rfl fa
            · refine HitFrom.second qa rfl rfl (HitFrom.first ⟨ta, _, [], [], At.refl _ _, by rw [htb], ?_⟩ qb rfl fb)
              rw [hbe, ax, ay]
              exact lin_one (sub_ne_zero.2 hy) (by simp only [List.getD_cons_zero]; linear_combination hc)
          · rcases c2 hc with hit | hfin
            · exact Or.inl (tail hit)
            · exact Or.inr hfin

/-! ### The input layer -/

/-- The bad challenges of a claim about the input layer at the point `q`. -/
noncomputable def badInput (φ : Nat → G →ₗ[F] F) (k : Nat) (q : List F) : List G → List F → Finset F :=
  after (k + 1) (2 * k + 4) (badInner φ k (q.tail.drop (q.tail.length / 2))) fun _ _ =>
    badEq (balance φ (q.tail.drop (q.tail.length / 2)))

theorem badInput_card (φ : Nat → G →ₗ[F] F) (k : Nat) (q : List F) (ps : List G) (vs : List F) :
    (badInput φ k q ps vs).card ≤ 6 :=
  after_card (fun _ _ => badX_card _ _ _ _ _ _) (fun _ _ _ _ => (fewRoots_card 1 _).trans (by omega)) _ _

set_option maxHeartbeats 1600000 in
theorem input_sound (params : Params G) (hsh : params.pc.gen1 = params.gen1) (u : G) (hu : params.gen1.generators = [u])
    (φ : Nat → G →ₗ[F] F) (hφ : Reads (u :: params.pc.genN.generators) params.gen1.h φ)
    (S : Submodule F G) (hS : S = Submodule.span F {u, params.gen1.h})
    (ch : Oracle F G) (com : List G) (prod : DotProof F G) (k : Nat) (hk : prod.L.length = k) (y : G) (eq : EqProof F G)
    (inputs q : List F) (comm : G) (m : Nat) (hq : q.length = m + 1) (hin : inputs.length = 2 ^ m)
    (tr tr' : Transcript F G) (hrun : inputVerify ch params com prod y eq inputs [] q comm tr = .ok ((), tr')) :
    ∃ a b, At ch tr tr' a b ∧ a.length = 2 * k + 7 ∧ b.length = k + 2 ∧
      (φ 0 comm ≠ mle (wit φ m com ++ inputs) q → comm ∈ S → (∀ r ∈ q, r ≠ 1) → HitFrom ch (badInput φ k q) tr tr') := by
  unfold inputVerify at hrun
  simp only [hsh, List.nil_append] at hrun
  obtain ⟨_, _, h1, hrun⟩ := bind_inv hrun
  obtain ⟨_, rfl⟩ := ensure_inv h1
  obtain ⟨ok, tr1, hev, hrun⟩ := bind_inv hrun
  obtain ⟨_, _, h1, hrun⟩ := bind_inv hrun
  obtain ⟨rfl, rfl⟩ := ensure_inv h1
  obtain ⟨e, _, h1, hrun⟩ := bind_inv hrun
  obtain ⟨he, rfl⟩ := orPanic_inv h1
  obtain ⟨ok, tr2, heq, hrun⟩ := bind_inv hrun
  obtain ⟨rfl, rfl⟩ := ensure_inv hrun
  obtain ⟨q0, qs, rfl⟩ : ∃ q0 qs, q = q0 :: qs := List.exists_cons_of_length_pos (by omega)
  have hqs : qs.length = m := by simpa using hq
  simp only [List.tail_cons, List.headD_cons] at hev he heq ⊢
  rw [evalValue_eq _ _ (by rw [hqs, hin])] at he
  obtain rfl := Option.some.inj he
  obtain ⟨a1, b1, q1, la1, lb1, k1⟩ := eval_sound ch params.pc qs com y prod k hk u (by rw [hsh]; exact hu) φ
    (by rw [hsh]; exact hφ) _ _ hev
  unfold badInput
  simp only [List.tail_cons]
  obtain ⟨y2, hy2⟩ : ∃ y2, y2 = qs.drop (qs.length / 2) := ⟨_, rfl⟩
  rw [← hy2] at k1 ⊢
  obtain ⟨c2, q2, k2⟩ := eq_sound (balance φ y2) (balance_h hφ y2) heq
  refine ⟨_, _, q1.trans q2, by simp [la1], by simp [lb1], fun hne hcS hr => ?_⟩
  rcases k1 (fun x hx => hr x (List.mem_cons_of_mem _ hx)) with hit | hbal
  · exact hit.first q1 lb1 q2.pre
  refine HitFrom.second q1 la1 lb1 ?_
  rcases k2 with hit | k2
  · exact hit
  exfalso
  have hcom : ∀ x e : F, commitVec params.gen1.generators [x] params.gen1.h e = x • u + e • params.gen1.h := by
    intro x e; rw [hu]; simp [commitVec, msm]
  have e0 : φ 0 u = 1 := hφ.gen 0 0 (by simp)
  have hLS : balance φ y2 comm = φ 0 comm := by
    rw [hS] at hcS
    refine LinearMap.eqOn_span (f := balance φ y2) (g := φ 0) ?_ hcS
    intro x hx
    rcases hx with rfl | hx
    · rw [balance_u hφ, e0]
    · rw [Set.mem_singleton_iff.1 hx, balance_h hφ, hφ.blind]
  have hw1 : balance φ y2 y = mle (wit φ m com) qs := by
    have := balance_rows φ params.gen1.h hφ.blind m qs hqs com
    rw [map_add, hsh, hy2, this] at hbal
    rw [hy2]
    linear_combination hbal
  rw [hLS, map_add, map_smul, map_smul, hw1, hcom, map_add, map_smul, map_smul, balance_u hφ, balance_h hφ] at k2
  apply hne
  have hwl : (wit φ m com).length = 2 ^ qs.length := by rw [wit_length, hqs]
  rw [k2, mle_cons, ← hwl, List.take_left, List.drop_left]
  simp

/-! ### The order of messages and challenges -/

theorem Causal.asserted {α : Type} {x : Oracle F G → Vf F G α} (hx : Causal x) : Causal fun ch => Lz.asserted (x ch) := by
  intro n ch ch' tr a t a' t' hag h h'
  exact hx n ch ch' tr a t a' t' hag (asserted_ok.1 h) (asserted_ok.1 h')

theorem Causal.evalOutput (o : List F) (n : Nat) : Causal (G := G) fun ch => Gkr.evalOutput ch o n :=
  (Causal.ensure _ _).bind fun _ => (Causal.challenges _ _).bind fun _ => (Causal.orPanic _).bind fun _ => Causal.pure _

theorem Causal.product (params : MultiParams G) (proof : ProdProof F G) (a b c : G) :
    Causal fun ch => productVerify ch params proof a b c :=
  (Causal.orPanic _).bind fun _ => (Causal.orPanic _).bind fun _ => (Causal.orPanic _).bind fun _ =>
    (Causal.orPanic _).bind fun _ => (Causal.orPanic _).bind fun _ => (Causal.say _).bind fun _ => (Causal.say _).bind fun _ =>
    (Causal.say _).bind fun _ => (Causal.say _).bind fun _ => (Causal.say _).bind fun _ => (Causal.say _).bind fun _ =>
    (Causal.challenge _).bind fun _ => Causal.pure _

theorem Causal.eval (params : PcParams G) (ry : List F) (commits : List G) (c : G) (proof : DotProof F G) :
    Causal fun ch => evalVerify ch params ry commits c proof :=
  (Causal.say _).bind fun _ => (Causal.say _).bind fun _ =>
    ((Causal.ensure _ _).bind fun _ => (Causal.bulletChallenges _ _).bind fun _ => (Causal.ensure _ _).bind fun _ =>
      (Causal.ensure _ _).bind fun _ => Causal.pure _).bind fun _ =>
    (Causal.say _).bind fun _ => (Causal.say _).bind fun _ => (Causal.challenge _).bind fun _ =>
    (Causal.orPanic _).bind fun _ => Causal.pure _

theorem Causal.input (params : Params G) (com : List G) (prod : DotProof F G) (y : G) (eq : EqProof F G) (inputs qa q : List F)
    (comm : G) : Causal fun ch => inputVerify ch params com prod y eq inputs qa q comm :=
  (Causal.ensure _ _).bind fun _ => (Causal.eval _ _ _ _ _).bind fun _ => (Causal.ensure _ _).bind fun _ =>
    (Causal.orPanic _).bind fun _ => (Causal.eq _ _ _ _).bind fun _ => Causal.ensure _ _

theorem Causal.layer (params : Params G) (p : ZkLayer F G) (gates : List Gate) (n : Nat) (gu gv : List F) (alpha beta : F)
    (c : G) : Causal fun ch => zkLayerVerify ch params p gates n gu gv alpha beta c :=
  (Causal.asserted (Causal.scRounds _ _ _ _ _ _ _)).bind fun _ => (Causal.say _).bind fun _ =>
    (Causal.asserted (Causal.scRounds _ _ _ _ _ _ _)).bind fun _ => (Causal.say _).bind fun _ =>
    (Causal.product _ _ _ _ _).bind fun _ => (Causal.ensure _ _).bind fun _ => (Causal.orPanic _).bind fun _ =>
    (Causal.eq _ _ _ _).bind fun _ => (Causal.ensure _ _).bind fun _ => Causal.pure _

theorem Causal.layers (params : Params G) (ps : List (ZkLayer F G)) (items : List (List Gate × Nat)) (gu gv : List F)
    (alpha beta : F) (c : G) : Causal fun ch => zkLayersVerify ch params ps items gu gv alpha beta c := by
  induction ps generalizing items gu gv alpha beta c with
  | nil => unfold zkLayersVerify; exact Causal.pure _
  | cons p ps ih =>
    cases items with
    | nil => unfold zkLayersVerify; exact Causal.pure _
    | cons x items =>
      unfold zkLayersVerify
      refine (Causal.layer _ _ _ _ _ _ _ _ _).bind fun _ => ?_
      cases ps with
      | nil => exact Causal.pure _
      | cons q qs => exact (Causal.challenge _).bind fun _ => (Causal.challenge _).bind fun _ => ih _ _ _ _ _ _

/-- The verifier. -/
theorem Causal.zk (params : Params G) (c : Circuit) (outputs inputs : List F) (proof : ZkGkrProof F G) :
    Causal fun ch => zkVerifyRun ch params c outputs inputs proof :=
  (Causal.say _).bind fun _ => (Causal.ensure _ _).bind fun _ => (Causal.orPanic _).bind fun _ =>
    (Causal.evalOutput _ _).bind fun _ => (Causal.ensure _ _).bind fun _ => (Causal.layers _ _ _ _ _ _ _ _).bind fun _ =>
    (Causal.orPanic _).bind fun _ => (Causal.ensure _ _).bind fun _ => (Causal.ensure _ _).bind fun _ =>
    (Causal.input _ _ _ _ _ _ _ _ _).bind fun _ => Causal.input _ _ _ _ _ _ _ _ _

end Zkp.Lz
