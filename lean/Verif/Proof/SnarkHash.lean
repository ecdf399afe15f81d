/- Soundness of the openings and of the multiset hashes of Spartan's evaluation argument. -/
import Verif.Proof.SnarkLayers
import Verif.Proof.SpartanTables

namespace Zkp.Sc

open Zkp.Ml Zkp.Spartan Zkp.Cp Polynomial

set_option linter.unusedSectionVars false
set_option linter.unusedSimpArgs false

variable {F : Type} [Field F] {G : Type} [AddCommGroup G] [Module F G] [DecidableEq F] [DecidableEq G]

/-! ### Fingerprints at one point -/

/-- The first hash parameters at which two cells of the multisets collide. -/
noncomputable def badG1 (s t : Multiset (F × F × F)) : Finset F :=
  ((s + t).toFinset ×ˢ (s + t).toFinset).biUnion fun p =>
    (C (p.1.1 - p.2.1) * X ^ 2 + C (p.1.2.1 - p.2.2.1) * X + C (p.1.2.2 - p.2.2.2) : F[X]).roots.toFinset

theorem badG1_card (s t : Multiset (F × F × F)) : (badG1 s t).card ≤ 2 * (Multiset.card s + Multiset.card t) ^ 2 := by
  have hU : (s + t).toFinset.card ≤ Multiset.card s + Multiset.card t := by
    rw [← Multiset.card_add]; exact Multiset.toFinset_card_le _
  refine le_trans (Finset.card_biUnion_le_card_mul _ _ 2 ?_) ?_
  · intro p _
    refine le_trans (Multiset.toFinset_card_le _) (le_trans (card_roots' _) ?_)
    compute_degree
  · rw [Finset.card_product]
    nlinarith

/-- The second hash parameters at which the fingerprints agree although the hashes differ. -/
noncomputable def badG2 (s t : Multiset (F × F × F)) (g1 : F) : Finset F :=
  fewRoots (max (Multiset.card s) (Multiset.card t)) fun g2 => fingerprint g1 g2 s = fingerprint g1 g2 t

theorem fingerprint_sound (s t : Multiset (F × F × F)) (g1 g2 : F) (h1 : g1 ∉ badG1 s t) (h2 : g2 ∉ badG2 s t g1)
    (h : fingerprint g1 g2 s = fingerprint g1 g2 t) : s = t := by
  have hmap : s.map (cellHash g1) = t.map (cellHash g1) := by
    have deg : ∀ u : Multiset (F × F × F),
        ((u.map fun c => C (cellHash g1 c) - X).prod : F[X]).natDegree ≤ Multiset.card u := by
      intro u
      refine le_trans (natDegree_multiset_prod_le _) ?_
      rw [Multiset.map_map]
      refine le_trans (Multiset.sum_le_card_nsmul _ 1 ?_) (by simp)
      intro x hx
      obtain ⟨c, _, rfl⟩ := Multiset.mem_map.1 hx
      exact le_trans (natDegree_sub_le _ _) (by simp)
    have hp : ((s.map fun c => C (cellHash g1 c) - X).prod : F[X]) =
        (t.map fun c => C (cellHash g1 c) - X).prod := by
      by_contra hne
      refine h2 (fewRoots_mem (((s.map fun c => C (cellHash g1 c) - X).prod : F[X]) -
        (t.map fun c => C (cellHash g1 c) - X).prod) (sub_ne_zero.2 hne) ?_ ?_ h)
      · exact (natDegree_sub_le _ _).trans (max_le_max (deg s) (deg t))
      · intro x hx
        unfold fingerprint at hx
        rw [eval_sub, sub_eq_zero]
        simpa [eval_multiset_prod, Multiset.map_map, Function.comp_def] using hx
    have hroots : ∀ u : Multiset (F × F × F),
        ((u.map fun c => C (cellHash g1 c) - X).prod : F[X]).roots = u.map (cellHash g1) := by
      intro u
      have hneg : ∀ c : F × F × F, (C (cellHash g1 c) - X : F[X]) = C (-1) * (X - C (cellHash g1 c)) := by
        intro c; simp
      have : (u.map fun c => C (cellHash g1 c) - X).prod =
          C ((-1 : F) ^ Multiset.card u) * ((u.map (cellHash g1)).map fun a => X - C a).prod := by
        rw [Multiset.map_map]
        induction u using Multiset.induction with
        | empty => simp
        | cons c u ih =>
          rw [Multiset.map_cons, Multiset.prod_cons, ih, Multiset.map_cons, Multiset.prod_cons,
            Multiset.card_cons, hneg, pow_succ, C_mul]
          simp only [Function.comp]
          ring
      rw [this, roots_C_mul _ (pow_ne_zero _ (by simp)), roots_multiset_prod_X_sub_C]
    rw [← hroots s, ← hroots t, hp]
  have hinj : ∀ c ∈ (s + t).toFinset, ∀ d ∈ (s + t).toFinset, cellHash g1 c = cellHash g1 d → c = d := by
    intro c hc d hd hcd
    by_contra hne
    apply h1
    refine Finset.mem_biUnion.2 ⟨(c, d), Finset.mem_product.2 ⟨hc, hd⟩, ?_⟩
    rw [Multiset.mem_toFinset, mem_roots']
    refine ⟨?_, ?_⟩
    · intro h0
      apply hne
      have c2 := congrArg (fun q : F[X] => q.coeff 2) h0
      have c1 := congrArg (fun q : F[X] => q.coeff 1) h0
      have c0 := congrArg (fun q : F[X] => q.coeff 0) h0
      simp only [coeff_add, coeff_C_mul, coeff_X_pow, coeff_X, coeff_C, coeff_zero] at c2 c1 c0
      norm_num at c2 c1 c0
      exact Prod.ext (sub_eq_zero.1 c2) (Prod.ext (sub_eq_zero.1 c1) (sub_eq_zero.1 c0))
    · simp only [IsRoot.def, eval_add, eval_mul, eval_C, eval_pow, eval_X]
      unfold cellHash at hcd
      linear_combination hcd
  have hback : ∀ u : Multiset (F × F × F), (∀ c ∈ u, c ∈ (s + t).toFinset) →
      (u.map (cellHash g1)).map (Function.invFunOn (cellHash g1) ((s + t).toFinset : Set (F × F × F))) = u := by
    intro u hu
    rw [Multiset.map_map]
    conv_rhs => rw [← Multiset.map_id u]
    refine Multiset.map_congr rfl ?_
    intro c hc
    exact (Set.InjOn.leftInvOn_invFunOn (fun x hx y hy => hinj x hx y hy)) (hu c hc)
  have e1 := hback s (fun c hc => by simp [hc])
  rw [hmap, hback t (fun c hc => by simp [hc])] at e1
  exact e1.symm

/-! ### Openings -/

theorem inner_last {ch : Oracle F G} {params : PcParams G} {ry : List F} {commits : List G} {commitRy : G}
    {proof : DotProof F G} {b : Bool} {tr tr' : Transcript F G}
    (h : innerProductVerify ch params ry commits commitRy proof tr = .ok (b, tr')) :
    ∃ t l, tr' = t ++ [.chal l] := by
  unfold innerProductVerify at h
  simp only [] at h
  obtain ⟨_, _, _, h⟩ := bind_inv h
  obtain ⟨_, _, _, h⟩ := bind_inv h
  obtain ⟨_, _, _, h⟩ := bind_inv h
  obtain ⟨⟨_, _, _⟩, _, _, h⟩ := bind_inv h
  obtain ⟨_, _, _, h⟩ := bind_inv h
  obtain ⟨_, _, _, h⟩ := bind_inv h
  obtain ⟨_, _, h1, h⟩ := bind_inv h
  obtain ⟨_, rfl⟩ := challenge_inv h1
  obtain ⟨_, _, h1, h⟩ := bind_inv h
  obtain ⟨_, rfl⟩ := orPanic_inv h1
  obtain ⟨_, rfl⟩ := pure_inv h
  exact ⟨_, _, rfl⟩

theorem Seg.of_at {ch : Oracle F G} {tr tr' : Transcript F G} {a : List G} {b : List F} (h : At ch tr tr' a b)
    (hl : ∃ t l, tr' = t ++ [.chal l]) (hb : b ≠ []) : ∃ m, Seg ch tr tr' b.length m b := by
  obtain ⟨t, l, rfl⟩ := hl
  have hp : tr <+: t := by
    rcases List.prefix_concat_iff.1 h.pre with e | e
    · exfalso
      have := h.chs
      rw [← e] at this
      exact hb (by simpa using this)
    · exact e
  obtain ⟨m, hm⟩ := Seg.of_last hp l h.chs rfl
  exact ⟨_, hm⟩

/-- The bad challenges of an opening. -/
noncomputable def badOpen (φ : Nat → G →ₗ[F] F) (k : Nat) (y : List F) (a : Transcript F G) (vs : List F) : Finset F :=
  badInner φ k (y.drop (y.length / 2)) (said a) vs

theorem badOpen_card (φ : Nat → G →ₗ[F] F) (k : Nat) (y : List F) (a : Transcript F G) (vs : List F) :
    (badOpen φ k y a vs).card ≤ 6 := badX_card _ _ _ _ _ _

theorem open_sound (ch : Oracle F G) (pc : PcParams G) (u : G) (hu : pc.gen1.generators = [u]) (φ : Nat → G →ₗ[F] F)
    (hφ : Reads (u :: pc.genN.generators) pc.gen1.h φ) (label : String) (cs rands : List F) (e : F) (commits : List G)
    (proof : DotProof F G) (k m : Nat) (hk : proof.L.length = k) (hm : (cs ++ rands).length = m) (tr tr' : Transcript F G)
    (h : openFolded ch pc label cs rands e commits proof tr = .ok ((), tr')) :
    ∃ a b, Seg ch tr tr' (k + 1) a b ∧ ((∀ y ∈ cs ++ rands, y ≠ 1) →
      HitT ch (badOpen φ k (cs ++ rands)) tr tr' ∨ e = mle (wit φ m commits) (cs ++ rands)) := by
  unfold openFolded at h
  obtain ⟨_, _, h1, h⟩ := bind_inv h
  obtain rfl := say_inv h1
  simp only [] at h
  obtain ⟨ok, t1, h1, h⟩ := bind_inv h
  obtain ⟨hok, rfl⟩ := ensure_inv h
  obtain rfl : ok = true := by simpa using hok
  obtain ⟨a, b, hat, ha, hb, ho⟩ := inner_sound ch pc (cs ++ rands) commits _ proof k hk u hu φ hφ _ _ h1
  obtain ⟨w, hs⟩ := Seg.of_at hat (inner_last h1) (by intro e; rw [e] at hb; simp at hb)
  rw [hb] at hs
  have hpl : ∀ x ∈ ([.fr label e] : Transcript F G), Plain x := by simp [Plain]
  refine ⟨_, _, hs.shift hpl, fun hone => ?_⟩
  rcases ho hone with hit | hbal
  · left
    refine (HitT.of_from hit).shift hpl fun a b => ?_
    exact Finset.Subset.refl _
  · right
    rw [map_add, balance_rows φ pc.gen1.h hφ.blind m _ hm, hu] at hbal
    have : balance φ ((cs ++ rands).drop ((cs ++ rands).length / 2)) (commitVec [u] [e] pc.gen1.h 0) = e := by
      unfold commitVec
      rw [zero_smul, add_zero]
      have : msm [u] [e] = e • u := by simp [msm]
      rw [this, map_smul, balance_u hφ, smul_eq_mul, mul_one]
    rw [this] at hbal
    linear_combination hbal

/-- A list committed without blinding is what the commitments are read as. -/
theorem wit_pack (pc : PcParams G) (u : G) (φ : Nat → G →ₗ[F] F) (hφ : Reads (u :: pc.genN.generators) pc.gen1.h φ)
    (poly : List F) (m : Nat) (hp : poly.length = 2 ^ m) (hg : 2 ^ (m - m / 2) ≤ pc.genN.generators.length) (comms : List G)
    (tr tr' : Transcript F G) (h : packPlain pc poly tr = .ok (comms, tr')) : wit φ m comms = poly := by
  unfold packPlain packCommit at h
  obtain ⟨_, _, h1, h⟩ := bind_inv h
  obtain ⟨_, _, h1, h⟩ := bind_inv h
  obtain ⟨hc, _⟩ := pure_inv h
  have hcl : Nat.clog 2 poly.length = m := by rw [hp, Nat.clog_pow 2 m (by norm_num)]
  rw [hcl] at hc
  obtain ⟨r, hr⟩ : ∃ r, r = 2 ^ (m - m / 2) := ⟨_, rfl⟩
  have hlr : 2 ^ m = 2 ^ (m / 2) * r := by rw [hr, ← pow_add]; congr 1; omega
  rw [← hr] at hc hg
  have hr0 : 0 < r := by rw [hr]; positivity
  apply List.ext_getElem (by rw [wit_length, hp])
  intro n h1 h2
  have hn : n < 2 ^ (m / 2) * r := by rw [wit_length] at h1; rwa [← hlr]
  have hq : n / r < 2 ^ (m / 2) := Nat.div_lt_of_lt_mul (by rwa [Nat.mul_comm])
  have hcom : comms.getD (n / r) 0 = commitVec pc.genN.generators ((poly.drop (n / r * r)).take r) pc.genN.h (0 : F) := by
    rw [← hc, List.getD_eq_getElem _ _ (by simpa using hq)]
    simp only [List.getElem_map, List.getElem_range]
    congr 1
    simp only [List.getD_eq_getElem?_getD, List.getElem?_replicate]
    split <;> rfl
  have hread : ∀ j, j ≤ pc.genN.generators.length → φ j (comms.getD (n / r) 0) =
      ((0 :: (poly.drop (n / r * r)).take r) : List F).getD j 0 := by
    intro j hj
    rw [hcom]
    have := hφ.commit (0 :: (poly.drop (n / r * r)).take r) 0 j (by simp; omega)
    rw [← this]
    unfold commitVec
    rw [zero_smul, zero_smul, add_zero, add_zero]
    congr 1
    simp [msm]
  have hw : (wit φ m comms)[n] = φ (n % r + 1) (comms.getD (n / r) 0) - φ 0 (comms.getD (n / r) 0) := by
    simp [wit, hr]
  rw [hw, hread _ (by have := Nat.mod_lt n hr0; omega), hread 0 (by omega)]
  simp only [List.getD_cons_succ, List.getD_cons_zero, sub_zero]
  rw [List.getD_eq_getElem?_getD, List.getElem?_take_of_lt (Nat.mod_lt _ hr0), List.getElem?_drop, Nat.div_add_mod',
    List.getElem?_eq_getElem h2]
  rfl

/-! ### Folded values -/

theorem fold_sound {ch : Oracle F G} {l1 l2 : String} {evals cs : List F} {e : F} {n : Nat} {tr tr' : Transcript F G}
    (h : foldEvals ch l1 l2 evals tr = .ok ((cs, e), tr')) (hn : Nat.clog 2 evals.length = n + 1) (truth : List F)
    (ht : truth.length = 2 ^ (n + 1)) :
    ∃ a, Seg ch tr tr' (n + 1) a cs ∧ e = mle evals cs ∧
      (HitT ch (fun a vs => badPoint truth ((frsVals a).getD 0 []) vs) tr tr' ∨
        ((∀ c ∈ cs, c ≠ 1) ∧ (e = mle truth cs → evals ++ List.replicate (2 ^ (n + 1) - evals.length) 0 = truth))) := by
  obtain ⟨cs', tr2, h', _⟩ := foldEvals_ok ch l1 l2 evals tr
  rw [h] at h'
  have he : e = mle evals cs := by
    simp only [Except.ok.injEq, Prod.mk.injEq] at h'
    obtain ⟨⟨h1, h2⟩, _⟩ := h'
    rw [h2, h1]
  unfold foldEvals at h
  have hpad : padTo evals.length = 2 ^ (n + 1) := by unfold padTo; rw [hn]
  have hle : evals.length ≤ 2 ^ (n + 1) := by rw [← hpad]; exact padTo_ge _
  rw [hpad] at h
  obtain ⟨E, hE⟩ : ∃ E, E = evals ++ List.replicate (2 ^ (n + 1) - evals.length) 0 := ⟨_, rfl⟩
  rw [← hE] at h ⊢
  have hEl : E.length = 2 ^ (n + 1) := by rw [hE]; simp; omega
  obtain ⟨_, _, h1, h⟩ := bind_inv h
  obtain rfl := say_inv h1
  obtain ⟨cs1, t1, h1, h⟩ := bind_inv h
  obtain ⟨out, t2, h2, h⟩ := bind_inv h
  obtain ⟨_, rfl⟩ := orPanic_inv h2
  have hcs : cs1 = cs ∧ t1 = tr' := by
    match out, h with
    | [x], h =>
      obtain ⟨q1, q2⟩ := pure_inv h
      exact ⟨(Prod.mk.inj q1).1, q2⟩
    | [], h => exact absurd h (by rintro ⟨⟩)
    | _ :: _ :: _, h => exact absurd h (by rintro ⟨⟩)
  obtain ⟨rfl, rfl⟩ := hcs
  rw [hEl, Nat.clog_pow 2 _ (by norm_num)] at h1
  obtain ⟨a, hs⟩ := challenges_seg h1
  have hpl : ∀ x ∈ ([.frs l1 E] : Transcript F G), Plain x := by simp [Plain]
  refine ⟨_, hs.shift hpl, he, ?_⟩
  rcases point_sound h1 truth E ht hEl with hit | ⟨hone, hp⟩
  · left
    refine hit.shift hpl fun a b => ?_
    simp only [List.cons_append, List.nil_append, frsVals, List.getD_cons_zero]
    exact Finset.Subset.refl _
  · right
    refine ⟨hone, fun hm => hp ?_⟩
    rw [← hm, he, hE, mle_pad]

end Zkp.Sc
