/- The checks of Marlin's verifier on the polynomials of the honest prover. -/
import Verif.Proof.MarlinProve
import Verif.Props.Marlin

set_option linter.unusedSectionVars false
set_option linter.unusedSimpArgs false

namespace Zkp.Marlin

open Polynomial

variable {F : Type} [Field F] [DecidableEq F]
variable {G1 G2 GT : Type} [AddCommGroup G1] [AddCommGroup G2] [AddCommGroup GT]
  [Module F G1] [Module F G2] [Module F GT]

theorem index_ahp {checked : Bool} {mk : Nat → Option (Domain F)} {srs : Kzg.UniversalParams G1 G2} {cs : CS F}
    {ipk : IndexProverKey F G1 G2} {ivk : IndexVerifierKey F G1 G2}
    (hi : index checked mk srs cs = .ok (ipk, ivk)) : ahpIndex checked mk cs = .ok ipk.index := by
  unfold index at hi
  obtain ⟨d, h1, hi⟩ := Kzg.bind_ok hi
  obtain ⟨deg, h2, hi⟩ := Kzg.bind_ok hi
  split at hi
  · cases hi
  obtain ⟨⟨ck, vk⟩, h3, hi⟩ := Kzg.bind_ok hi
  obtain ⟨crs, h4, hi⟩ := Kzg.bind_ok hi
  injection hi with hi
  injection hi with e1 e2
  rw [h1, ← e1]

theorem init_ok {mk : Nat → Option (Domain F)} {d : IndexData F} {cs : CS F} {s : PState F}
    (h : proverInit mk d cs = .ok s) :
    s.inputs = cs.inputs ∧ s.witness = (proverSquare cs).2.1 ∧
    d.info.num_constraints = s.inputs.length + s.witness.length ∧
    (∀ i, s.za.getD i 0 = rowVal (fun j => (s.inputs ++ s.witness).getD j 0) (d.a.getD i [])) ∧
    (∀ i, s.zb.getD i 0 = rowVal (fun j => (s.inputs ++ s.witness).getD j 0) (d.b.getD i [])) ∧
    mk s.inputs.length = some s.X ∧ mk d.info.num_constraints = some s.H ∧
    mk d.info.num_non_zeros = some s.K := by
  unfold proverInit at h
  dsimp only at h
  split at h
  · cases h
  rename_i hne
  push Not at hne
  obtain ⟨za, h1, h⟩ := Kzg.bind_ok h
  obtain ⟨zb, h2, h⟩ := Kzg.bind_ok h
  obtain ⟨X, h3, h⟩ := Kzg.bind_ok h
  obtain ⟨H, h4, h⟩ := Kzg.bind_ok h
  obtain ⟨K, h5, h⟩ := Kzg.bind_ok h
  injection h with h
  subst h
  dsimp only
  have e := (C37_prover_shape cs).1
  refine ⟨e, rfl, hne.2, (innerProduct_mapM h1).2, (innerProduct_mapM h2).2, domain_ok h3, ?_, domain_ok h5⟩
  rw [hne.1]
  exact domain_ok h4

theorem zOf_eq {D : Domain F} (hD : D.Valid) {w : F[X]} (hw : w ≠ 0) (v : List F) :
    zOf D w (interpolate D v) = w * (X ^ D.size - 1) + interpolate D v := by
  unfold zOf
  rw [cut_all]
  have hm : (X ^ D.size - 1 : F[X]) ≠ 0 := (vanish_monic hD).ne_zero
  have hd : (X ^ D.size - 1 : F[X]).natDegree = D.size := by
    rw [← C_1]; exact natDegree_X_pow_sub_C
  have h1 : plen (w * (X ^ D.size - 1)) = w.natDegree + D.size + 1 := by
    unfold plen
    rw [if_neg (mul_ne_zero hw hm), natDegree_mul hw hm, hd]
  have h2 : plen (interpolate D v) ≤ D.size := by
    unfold plen
    split
    · omega
    · rename_i h0
      exact (natDegree_lt_iff_degree_lt h0).mpr (interpolate_degree D v)
  omega

/-- The outer check, on the honest prover's polynomials. -/
theorem outer_honest {checked : Bool} {mk : Nat → Option (Domain F)} (hmk : MkOk mk) {d : IndexData F} {cs0 cs : CS F}
    (hi : ahpIndex checked mk cs0 = .ok d) (hc : cs.constraints = cs0.constraints)
    (hl1 : cs.inputs.length = cs0.inputs.length) (hv : cs.Valid)
    (hpow : ∃ k, cs.inputs.length = 2 ^ k) {s : PState F} (hs : proverInit mk d cs = .ok s)
    {c : Coins F} (hza : c.za ≠ 0) (hzb : c.zb ≠ 0) {o : FirstOracles F} (ho : firstRound s c = .ok o)
    (hw : o.w ≠ 0) {m : FirstMsg F} (hα : s.H.vanishing m.alpha ≠ 0) {o2 : SecondOracles F}
    (h2 : secondRound mk d s o m = .ok o2) (β γ : F) :
    2 ≤ s.H.size ∧ o2.t = tSum s.H s.K d m ∧
    outerCheck ⟨s.H, s.K, m.alpha, m.eta_a, m.eta_b, m.eta_c, β, γ⟩ (s.X.vanishing β)
      ((interpolate s.X s.inputs).eval β) (o.mask.eval β) (o.za.eval β) (o.zb.eval β) (o.w.eval β) (o2.t.eval β)
      (o2.h1.eval β) (o2.g1.eval β) = true := by
  obtain ⟨s1, s2, s3, s4, s5, hD, hH, hK⟩ := init_ok hs
  obtain ⟨hproc, hlen, D', H', K', hD', hH', -, hK', ca, cb, cc⟩ := ahpIndex_full hi
  rw [← hl1, ← s1, hD] at hD'
  rw [hH] at hH'
  rw [hK] at hK'
  injection hD' with hD'
  injection hH' with hH'
  injection hK' with hK'
  subst hD' hH' hK'
  have vH := hmk.valid hH
  have vD := hmk.valid hD
  have vK := hmk.valid hK
  set z : Nat → F := fun j => (s.inputs ++ s.witness).getD j 0 with hz
  have hsat : MatSat d.a d.b d.c z := by
    rw [(C37_partial checked cs0 hproc).2 z, ← hl1]
    have h1 : CS.Sat (assign cs.inputs.length z) cs := by
      refine hv _ ⟨fun i v hi => ?_, fun i v hi => ?_⟩
      · have hlt : i < cs.inputs.length := by
          by_contra hcon
          rw [List.getElem?_eq_none (by omega)] at hi
          cases hi
        simp only [assign, hz]
        rw [List.getD_append _ _ _ _ (by rw [s1]; exact hlt), s1, List.getD_eq_getElem?_getD, hi,
          Option.getD_some]
      · simp only [assign, hz]
        rw [List.getD_append_right _ _ _ _ (by rw [s1]; omega), s1, Nat.add_sub_cancel_left, s2]
        obtain ⟨r, hr⟩ := (C37_prover_shape cs).2.1
        rw [← hr, List.getD_eq_getElem?_getD]
        have hlt : i < cs.aux.length := by
          by_contra hcon
          rw [List.getElem?_eq_none (by omega)] at hi
          cases hi
        rw [List.getElem?_append_left hlt, hi, Option.getD_some]
    intro k hk
    exact h1 k (hc ▸ hk)
  have hge := hmk.ge hH
  have hlc : d.c.length ≤ s.H.size := hlen ▸ hge
  have hn : s.inputs.length = s.X.size := by
    obtain ⟨k, hk⟩ := hpow
    rw [← s1] at hk
    have a1 := hmk.ge hD
    have a2 := hmk.least hD k (by omega)
    omega
  obtain ⟨p, hsub⟩ := MkOk.isSub hmk hD hH (by omega)
  -- the first round
  unfold firstRound at ho
  obtain ⟨w, o1, ho⟩ := Kzg.bind_ok ho
  obtain ⟨mask, o2', ho⟩ := Kzg.bind_ok ho
  injection ho with ho
  obtain ⟨zp, hzp, hze⟩ := zPoly_ok hsub s.inputs s.witness c.w (by omega)
  unfold zPoly at hzp
  rw [o1] at hzp
  injection hzp with hzp
  have ew : o.w = w := by rw [← ho]
  have ea : o.za = interpolate s.H s.za + C c.za * (X ^ s.H.size - 1) := by rw [← ho]
  have eb : o.zb = interpolate s.H s.zb + C c.zb * (X ^ s.H.size - 1) := by rw [← ho]
  have em : o.mask = mask := by rw [← ho]
  have ez : zOf s.X o.w (interpolate s.X s.inputs) = zp := by
    rw [zOf_eq vD hw, ew, hzp]
  obtain ⟨hH2, et, q, hq, hqe⟩ := second_ok hmk vH vK hD hα ca cb cc (by rw [hsat.1]; exact hlc)
    (by rw [hsat.2.1]; exact hlc) hlc h2
  refine ⟨hH2, et, ?_⟩
  have hsum : ∑ k ∈ Finset.range s.H.size, q.eval (s.H.ω ^ k) = 0 := by
    rw [hq, ez]
    refine outer_zero vH vK hα ca cb cc (z := z) ?_ hsat hlc ?_ ?_ ?_ ?_ ?_
    · intro j q' hr hlt
      exact z_read hsub hn hze hr hlt
    · intro i hi
      rw [ea, blinded_eval vH _ _ hi, s4]
    · intro i hi
      rw [eb, blinded_eval vH _ _ hi, s5]
    · rw [em]
      exact maskPoly_sum vH hH2 o2'
    · rw [ea, eb, blinded_natDegree vH _ hza, blinded_natDegree vH _ hzb]
    · rw [ea, blinded_natDegree vH _ hza]
      omega
  have hqb := hqe hsum β
  rw [hq, zOf_eq vD hw] at hqb
  unfold outerCheck
  dsimp only
  rw [decide_eq_true_iff, ← hqb, et]
  rw [eval_add, eval_sub, eval_mul, eval_mul, eval_add, eval_mul, Domain.eval_vanishing, bivariatePoly_eval,
    mPoly_eval (by rw [ea, eb, blinded_natDegree vH _ hza, blinded_natDegree vH _ hzb])
    (by rw [ea, blinded_natDegree vH _ hza]; omega)]
  ring

theorem forall₂_mem {α β : Type} {R : α → β → Prop} {l : List α} {r : List β} (h : List.Forall₂ R l r) {a : α}
    (ha : a ∈ l) : ∃ b, R a b := by
  induction h with
  | nil => cases ha
  | cons h1 _ ih =>
    rcases List.mem_cons.mp ha with rfl | ha
    exacts [⟨_, h1⟩, ih ha]

theorem commitAll_deg {τ : F} {g γ : G1} {deg : Nat} {c : Coins F} {p : Kzg.LabeledPolynomial F}
    {ps : List (Kzg.LabeledPolynomial F)} {crs : List (Kzg.LabeledCommitment G1 × Kzg.Randomness F)}
    (hh : (c.hide p.label).1.natDegree ≤ deg) (hm : p ∈ ps)
    (h : commitAll ⟨Kzg.pows τ g (deg + 1), Kzg.pows τ γ (deg + 1), deg⟩ c ps = .ok crs) :
    1 ≤ p.polynomial.natDegree := by
  have h := liftPc_ok h
  unfold Kzg.pcCommit at h
  rw [Kzg.mapM_ok] at h
  obtain ⟨x, h1⟩ := forall₂_mem h (List.mem_map_of_mem hm)
  unfold Kzg.commitOne at h1
  obtain ⟨cr, h2, -⟩ := Kzg.bind_ok h1
  refine (Kzg.commit_ok (m := deg + 1) ?_ h2).1
  intro d r hb
  cases hp : p.hiding_bound with
  | none => rw [hp] at hb; cases hb
  | some b =>
    rw [hp] at hb
    injection hb with hb
    injection hb with _ hb
    rw [← hb]
    dsimp only
    omega

theorem commitAll_commits {τ : F} {g γ : G1} {deg : Nat} {c : Coins F} {ps : List (Kzg.LabeledPolynomial F)}
    {crs : List (Kzg.LabeledCommitment G1 × Kzg.Randomness F)}
    (hh : ∀ l, (c.hide l).1.natDegree ≤ deg ∧ (c.hide l).2.natDegree ≤ deg)
    (h : commitAll ⟨Kzg.pows τ g (deg + 1), Kzg.pows τ γ (deg + 1), deg⟩ c ps = .ok crs) :
    ∃ ts : List (Kzg.LabeledPolynomial F × Kzg.LabeledCommitment G1 × Kzg.Randomness F),
      ps = ts.map (·.1) ∧ crs.map (·.1.commitment) = ts.map (·.2.1.commitment) ∧ crs.map (·.2) = ts.map (·.2.2) ∧
      ∀ t ∈ ts, Kzg.Commits τ g γ deg t.1 t.2.1 t.2.2 := by
  obtain ⟨ts, e1, e2, e3, e4⟩ := Kzg.pcCommit_commits (fun p hp d _ => by
    obtain ⟨q, _, rfl⟩ := List.mem_map.mp hp
    exact hh q.label) (liftPc_ok h)
  refine ⟨ts, ?_, ?_, e3, e4⟩
  · rw [← e1, List.map_map]
    exact (List.map_id ps).symm
  · have := congrArg (List.map Kzg.LabeledCommitment.commitment) e2
    rw [List.map_map, List.map_map] at this
    exact this

theorem label_all {τ : F} {g γ : G1} {deg : Nat} {ivk : IndexVerifierKey F G1 G2} {c1 c2 c3 : List (Kzg.Commitment G1)}
    {bounds : List (Option Nat)} (ts : List (Kzg.LabeledPolynomial F × Kzg.LabeledCommitment G1 × Kzg.Randomness F))
    (h1 : ivk.index_comms ++ c1 ++ c2 ++ c3 = ts.map (·.2.1.commitment))
    (h2 : indexLabels ++ proverLabels = ts.map (·.1.label))
    (h3 : List.replicate ivk.index_comms.length none ++ bounds = ts.map (·.1.degree_bound))
    (hts : ∀ t ∈ ts, Kzg.Commits τ g γ deg t.1 t.2.1 t.2.2) :
    labelCommitments ivk c1 c2 c3 bounds = ts.map (·.2.1) := by
  unfold labelCommitments
  rw [h1, h2, h3, List.zip_map', List.zip_map', List.map_map]
  refine List.map_congr_left fun t ht => ?_
  have a := (hts t ht).label
  have b := (hts t ht).bound
  simp only [Function.comp_apply]
  cases hh : t.2.1 with
  | mk l cm bd => rw [hh] at a b; dsimp only at a b ⊢; rw [a, b]

theorem challenges_staged {mk : Nat → Option (Domain F)} {rng : FsRng F G1 G2} {ivk : IndexVerifierKey F G1 G2}
    {pi : List F} {c1 c2 : List (Kzg.Commitment G1)} {v : Domain F × Domain F × FirstMsg F} {β : F}
    (hv : verifierFirst mk rng ivk pi c1 = .ok v) (hβ : verifierSecond rng v.1 ivk pi c1 c2 = .ok β)
    (c3 : List (Kzg.Commitment G1)) :
    challenges mk rng ivk pi c1 c2 c3 = .ok ⟨v.1, v.2.1, v.2.2.alpha, v.2.2.eta_a, v.2.2.eta_b, v.2.2.eta_c, β,
      rng.draw [.seed ivk pi, .comms c1, .comms c2, .comms c3] 0⟩ := by
  unfold verifierFirst at hv
  unfold challenges
  dsimp only at hv ⊢
  split at hv
  · cases hv
  rename_i hsq
  rw [if_neg hsq]
  obtain ⟨H, hH, hv⟩ := Kzg.bind_ok hv
  obtain ⟨K, hK, hv⟩ := Kzg.bind_ok hv
  rw [hH, hK]
  simp only [bind, Except.bind]
  split at hv
  · cases hv
  · rename_i α k hα
    injection hv with hv
    subst hv
    unfold verifierSecond at hβ
    dsimp only at hβ
    rw [hα]
    dsimp only
    split at hβ
    · cases hβ
    · rename_i β' k' hb
      injection hβ with hβ
      subst hβ
      have hb' : sampleOutside H (rng.draw ([FsMsg.seed ivk pi, .comms c1] ++ [.comms c2])) 0 = some (β', k') := hb
      rw [hb']
      rfl

end Zkp.Marlin
