/- The parts of a run of Marlin's prover, in terms of the interpolants of the assignment and the coins. -/
import Verif.Proof.MarlinTwin
import Verif.Props.MarlinComplete

set_option linter.unusedSectionVars false
set_option linter.unusedSimpArgs false

namespace Zkp.Marlin

open Polynomial

variable {F : Type} [Field F] [DecidableEq F]
variable {G1 G2 GT : Type} [AddCommGroup G1] [AddCommGroup G2] [AddCommGroup GT]
  [Module F G1] [Module F G2] [Module F GT]

/-- The interpolants of the prover's assignment. -/
noncomputable def sideOf (s : PState F) : Side F where
  I := interpolate s.H (match wEvals s.H s.X (s.H.fft (s.X.ifft s.inputs)) s.witness with
    | .ok v => v
    | .error _ => [])
  a := interpolate s.H s.za
  b := interpolate s.H s.zb

theorem sideOf_low (s : PState F) : (sideOf s).Low s.H.size :=
  ⟨interpolate_degree _ _, interpolate_degree _ _, interpolate_degree _ _⟩

noncomputable def frameOf (D H K : Domain F) (d : IndexData F) (m : FirstMsg F) (z τ k : F) (deg : Nat) : Frame F where
  z := z
  τ := τ
  k := k
  sh := deg - (H.size - 2)
  n := H.size
  nD := D.size
  m := m
  r := bivariatePoly H m.alpha
  t := tSum H K d m

theorem mPoly_eq {m : FirstMsg F} {za zb : F[X]} (h : plen za = plen zb) (h1 : 0 < plen za) :
    mPoly m za zb = C m.eta_a * za + C m.eta_b * zb + C m.eta_c * (za * zb) := by
  have ha : za ≠ 0 := by
    rintro rfl
    simp [plen] at h1
  have hb : zb ≠ 0 := by
    rintro rfl
    rw [h] at h1
    simp [plen] at h1
  have hl : plen za ≤ plen (za * zb) := by
    unfold plen
    rw [if_neg ha, if_neg (mul_ne_zero ha hb), natDegree_mul ha hb]
    omega
  unfold mPoly
  dsimp only
  rw [cut_all (by omega), cut_all (by omega)]
  ring

/-- The parts of a run that gives a proof. -/
structure Ran (mk : Nat → Option (Domain F)) (rng : FsRng F G1 G2) (ipk : IndexProverKey F G1 G2)
    (ivk : IndexVerifierKey F G1 G2) (ck : Kzg.CommitterKey G1) (pi : List F) (s : PState F) (c : Coins F) (π : Proof F G1)
    (f : Frame F) (r1 r2 r3 : List (Kzg.LabeledCommitment G1 × Kzg.Randomness F))
    (q mask : F[X]) (o3 : ThirdOracles F) : Prop where
  first : verifierFirst mk rng ivk pi (r1.map (·.1.commitment)) = .ok (s.H, s.K, f.m)
  second : verifierSecond rng s.H ivk pi (r1.map (·.1.commitment)) (r2.map (·.1.commitment)) = .ok f.z
  hα : s.H.vanishing f.m.alpha ≠ 0
  hβ : s.H.vanishing f.z ≠ 0
  n3 : 3 ≤ s.H.size
  tdeg : f.t.natDegree < s.H.size
  wmul : f.w (sideOf s) c.w * (X ^ s.X.size - 1) = blind s.H.size (sideOf s).I c.w
  sub : ∃ p, Sub s.X s.H p
  c1 : commitAll ck c (FirstOracles.polys
    ⟨f.w (sideOf s) c.w, blind s.H.size (sideOf s).a c.za, blind s.H.size (sideOf s).b c.zb, mask⟩) = .ok r1
  hmask : mask = c.mask - C ((c.mask % (X ^ s.H.size - 1)).coeff 0)
  hq : q = mask + f.q (sideOf s) c.w c.za c.zb - f.t * interpolate s.X s.inputs
  hsum : ∀ m z τ k deg, s.H.vanishing m.alpha ≠ 0 → ∑ i ∈ Finset.range s.H.size,
    ((frameOf s.X s.H s.K ipk.index m z τ k deg).q (sideOf s) c.w c.za c.zb
      - (frameOf s.X s.H s.K ipk.index m z τ k deg).t * interpolate s.X s.inputs).eval (s.H.ω ^ i) = 0
  c2 : commitAll ck c
    (SecondOracles.polys s.H ⟨f.t, (q % (X ^ s.H.size - 1)).divX, q / (X ^ s.H.size - 1)⟩) = .ok r2
  third : thirdRound mk ipk.index s f.m f.z = .ok o3
  c3 : commitAll ck c (o3.polys s.K) = .ok r3
  fin : finish rng ipk pi ⟨s.H, s.K, f.m.alpha, f.m.eta_a, f.m.eta_b, f.m.eta_c, f.z,
      rng.draw [.seed ivk pi, .comms (r1.map (·.1.commitment)), .comms (r2.map (·.1.commitment)),
        .comms (r3.map (·.1.commitment))] 0⟩
    (FirstOracles.polys
      ⟨f.w (sideOf s) c.w, blind s.H.size (sideOf s).a c.za, blind s.H.size (sideOf s).b c.zb, mask⟩
      ++ SecondOracles.polys s.H ⟨f.t, (q % (X ^ s.H.size - 1)).divX, q / (X ^ s.H.size - 1)⟩
      ++ o3.polys s.K) r1 r2 r3 = .ok π

theorem prove_ran {checked : Bool} {mk : Nat → Option (Domain F)} (hmk : MkOk mk)
    {rng : FsRng F G1 G2} {N : Nat} {τ : F} {g γ : G1} {h : G2} {cs0 cs : CS F}
    {ipk : IndexProverKey F G1 G2} {ivk : IndexVerifierKey F G1 G2}
    (hi : index checked mk (Kzg.setup N τ g γ h) cs0 = .ok (ipk, ivk)) {H K : Domain F} {deg : Nat}
    (key : Keys mk τ g γ h ipk ivk H K deg)
    (hc : cs.constraints = cs0.constraints) (hl : cs.inputs.length = cs0.inputs.length) (hv : cs.Valid)
    {pi : List F} (hin : cs.inputs = 1 :: pi) (hpow : ∃ k, cs.inputs.length = 2 ^ k)
    {c : Coins F} (hza : c.za ≠ 0) (hzb : c.zb ≠ 0)
    (hhide : ∀ l, (c.hide l).1.natDegree ≤ 1 ∧ (c.hide l).2.natDegree ≤ 1)
    {s : PState F} (hs : proverInit mk ipk.index cs = .ok s)
    {π : Proof F G1} (hp : prove mk rng ipk cs c = .ok π) :
    ∃ r1 r2 r3 m z q mask o3, ∀ k, Ran mk rng ipk ivk ipk.committer_key pi s c π
      (frameOf s.X s.H s.K ipk.index m z τ k deg) r1 r2 r3 q mask o3 := by
  have hidx := index_ahp hi
  have hdeg4 : 1 ≤ deg := by have := key.hdeg; omega
  have hhide' : ∀ l, (c.hide l).1.natDegree ≤ deg ∧ (c.hide l).2.natDegree ≤ deg :=
    fun l => ⟨(hhide l).1.trans hdeg4, (hhide l).2.trans hdeg4⟩
  unfold prove at hp
  rw [hs] at hp
  simp only [Except.bind, bind] at hp
  obtain ⟨o1, ho1, hp⟩ := Kzg.bind_ok hp
  obtain ⟨r1, hr1, hp⟩ := Kzg.bind_ok hp
  obtain ⟨v, hv1, hp⟩ := Kzg.bind_ok hp
  obtain ⟨o2, ho2, hp⟩ := Kzg.bind_ok hp
  obtain ⟨r2, hr2, hp⟩ := Kzg.bind_ok hp
  obtain ⟨β, hβ, hp⟩ := Kzg.bind_ok hp
  obtain ⟨o3, ho3, hp⟩ := Kzg.bind_ok hp
  obtain ⟨r3, hr3, hp⟩ := Kzg.bind_ok hp
  obtain ⟨s1, s2, s3, s4, s5, hD, hH, hK⟩ := init_ok hs
  have hpi : s.inputs.tail = pi := by rw [s1, hin, List.tail_cons]
  rw [hpi, key.hivk] at hv1 hβ
  rw [hpi] at hp
  rw [key.hivk] at hp
  have hch := challenges_staged hv1 hβ (r3.map (·.1.commitment))
  obtain ⟨c1, c2, hα, hβ', -⟩ := challenges_ok hch
  dsimp only at c1 c2 hα hβ'
  have ev1 : v.1 = s.H := by rw [key.hinfo] at hH; rw [hH] at c1; exact (Option.some.inj c1).symm
  have ev2 : v.2.1 = s.K := by rw [key.hinfo] at hK; rw [hK] at c2; exact (Option.some.inj c2).symm
  obtain ⟨m1, m2, m⟩ := v
  dsimp only at ev1 ev2
  subst ev1 ev2
  dsimp only at hα hβ' hp ho2 ho3 hβ
  have hw : o1.w ≠ 0 := by
    rw [key.hck] at hr1
    have h1 := commitAll_deg (p := ⟨"w", o1.w, none, some 1⟩) (hhide' "w").1 (by simp [FirstOracles.polys]) hr1
    intro h0
    dsimp only at h1
    rw [h0, natDegree_zero] at h1
    omega
  have hg1 : 1 ≤ o2.g1.natDegree := by
    rw [key.hck] at hr2
    exact commitAll_deg (p := ⟨"g_1", o2.g1, some (s.H.size - 2), some 1⟩) (hhide' "g_1").1
      (by simp [SecondOracles.polys]) hr2
  -- the matrices
  obtain ⟨hproc, hlen, D', H', K', hD', hH', -, hK', ca, cb, cc⟩ := ahpIndex_full hidx
  rw [← hl, ← s1, hD] at hD'
  rw [hH] at hH'
  rw [hK] at hK'
  have hD' := Option.some.inj hD'
  have hH' := Option.some.inj hH'
  have hK' := Option.some.inj hK'
  subst hD' hH' hK'
  have vH := hmk.valid hH
  have vD := hmk.valid hD
  have vK := hmk.valid hK
  set zv : Nat → F := fun j => (s.inputs ++ s.witness).getD j 0 with hz
  have hsat : MatSat ipk.index.a ipk.index.b ipk.index.c zv := by
    rw [(C37_partial checked cs0 hproc).2 zv, ← hl]
    have h1 : CS.Sat (assign cs.inputs.length zv) cs := by
      refine hv _ ⟨fun i v hi => ?_, fun i v hi => ?_⟩
      · have hlt : i < cs.inputs.length := by
          by_contra hcon
          rw [List.getElem?_eq_none (by omega)] at hi
          cases hi
        simp only [assign, hz]
        rw [List.getD_append _ _ _ _ (by rw [s1]; exact hlt), s1, List.getD_eq_getElem?_getD, hi,
          Option.getD_some]
      · simp only [assign, hz]
        rw [List.getD_append_right _ _ _ _ (by rw [s1]; omega), s1, Nat.add_sub_cancel_left, s2]
        obtain ⟨r, hr⟩ := (C37_prover_shape cs).2.1
        rw [← hr, List.getD_eq_getElem?_getD]
        have hlt : i < cs.aux.length := by
          by_contra hcon
          rw [List.getElem?_eq_none (by omega)] at hi
          cases hi
        rw [List.getElem?_append_left hlt, hi, Option.getD_some]
    intro k hk
    exact h1 k (hc ▸ hk)
  have hge := hmk.ge hH
  have hlc : ipk.index.c.length ≤ s.H.size := hlen ▸ hge
  have hn : s.inputs.length = s.X.size := by
    obtain ⟨k, hk⟩ := hpow
    rw [← s1] at hk
    have a1 := hmk.ge hD
    have a2 := hmk.least hD k (by omega)
    omega
  obtain ⟨p, hsub⟩ := MkOk.isSub hmk hD hH (by omega)
  -- the first round
  unfold firstRound at ho1
  obtain ⟨w, o1w, ho1⟩ := Kzg.bind_ok ho1
  obtain ⟨mask, o1m, ho1⟩ := Kzg.bind_ok ho1
  have ho1 := Except.ok.inj ho1
  obtain ⟨zp, hzp, hze⟩ := zPoly_ok hsub s.inputs s.witness c.w (by omega)
  unfold zPoly at hzp
  rw [o1w] at hzp
  have hzp := Except.ok.inj hzp
  have ew : o1.w = w := by rw [← ho1]
  have ea : o1.za = blind s.H.size (sideOf s).a c.za := by rw [← ho1]; rfl
  have eb : o1.zb = blind s.H.size (sideOf s).b c.zb := by rw [← ho1]; rfl
  have em : o1.mask = mask := by rw [← ho1]
  have ez : zOf s.X o1.w (interpolate s.X s.inputs) = zp := by
    rw [zOf_eq vD hw, ew, hzp]
  have hwd : w = blind s.H.size (sideOf s).I c.w / (X ^ s.X.size - 1) ∧
      w * (X ^ s.X.size - 1) = blind s.H.size (sideOf s).I c.w := by
    unfold wPoly at o1w
    obtain ⟨wv, hwv, o1w⟩ := Kzg.bind_ok o1w
    have eI : (sideOf s).I = interpolate s.H wv := by unfold sideOf; dsimp only; rw [hwv]
    dsimp only at o1w
    split at o1w
    · rename_i hmod
      have o1w := Except.ok.inj o1w
      unfold blind
      rw [eI]
      refine ⟨o1w.symm, ?_⟩
      have h1 := EuclideanDomain.div_add_mod (interpolate s.H wv + C c.w * (X ^ s.H.size - 1)) (X ^ s.X.size - 1)
      rw [hmod, add_zero, o1w, mul_comm] at h1
      exact h1
    · cases o1w
  have hmask : mask = c.mask - C ((c.mask % (X ^ s.H.size - 1)).coeff 0) := by
    unfold maskPoly at o1m
    split at o1m
    · cases o1m
    · exact (Except.ok.inj o1m).symm
  -- the second round
  unfold secondRound at ho2
  dsimp only at ho2
  obtain ⟨D', hD', ho2⟩ := Kzg.bind_ok ho2
  have e := domain_ok hD'
  rw [hD] at e
  have e := Option.some.inj e
  subst e
  obtain ⟨tv, htv, ho2⟩ := Kzg.bind_ok ho2
  obtain ⟨q, hq, ho2⟩ := Kzg.bind_ok ho2
  have et := tEvals_poly vH vK hα ca cb cc (by rw [hsat.1]; exact hlc) (by rw [hsat.2.1]; exact hlc) hlc htv
  have htd : (tSum s.H s.K ipk.index m).natDegree < s.H.size := by
    rw [← et]
    by_cases h0 : interpolate s.H tv = 0
    · rw [h0, natDegree_zero]; exact vH.pos
    · exact (natDegree_lt_iff_degree_lt h0).mpr (interpolate_degree _ _)
  rw [et, batchEvals_poly vH hα] at hq
  have hq := q1Poly_ok hmk hq
  split at ho2
  · cases ho2
  rename_i hne
  push Not at hne
  have ho2 := Except.ok.inj ho2
  have lza : plen o1.za = s.H.size + 1 := by rw [ea]; exact blinded_natDegree vH _ hza
  have lzb : plen o1.zb = s.H.size + 1 := by rw [eb]; exact blinded_natDegree vH _ hzb
  have hsum : ∀ m : FirstMsg F, s.H.vanishing m.alpha ≠ 0 →
      ∑ k ∈ Finset.range s.H.size, ((0 : F[X]) + (bivariatePoly s.H m.alpha * mPoly m o1.za o1.zb
      - tSum s.H s.K ipk.index m * zp)).eval (s.H.ω ^ k) = 0 := by
    intro m hα
    refine outer_zero vH vK hα ca cb cc (z := zv) ?_ hsat hlc ?_ ?_ ?_ ?_ ?_
    · intro j q' hr hlt
      exact z_read hsub hn hze hr hlt
    · intro i hi
      rw [ea]
      exact (blinded_eval vH _ _ hi).trans (s4 i)
    · intro i hi
      rw [eb]
      exact (blinded_eval vH _ _ hi).trans (s5 i)
    · simp
    · rw [lza, lzb]
    · rw [lza]; omega
  rw [ez] at hq
  rw [mPoly_eq (by rw [lza, lzb]) (by rw [lza]; omega)] at hq
  rw [← hzp, hwd.2, ea, eb] at hq
  have n3 : 3 ≤ s.H.size := by
    by_contra hcon
    rw [← ho2] at hg1
    dsimp only at hg1
    have h1 := mod_degree vH q
    rw [natDegree_divX_eq_natDegree_tsub_one] at hg1
    have h2 := (natDegree_lt_iff_degree_lt hne.1).mpr h1
    omega
  have hsum' : ∀ m z τ k deg, s.H.vanishing m.alpha ≠ 0 → ∑ i ∈ Finset.range s.H.size,
      ((frameOf s.X s.H s.K ipk.index m z τ k deg).q (sideOf s) c.w c.za c.zb
      - (frameOf s.X s.H s.K ipk.index m z τ k deg).t * interpolate s.X s.inputs).eval (s.H.ω ^ i) = 0 := by
    intro m z τ k deg hα
    have hs := hsum m hα
    rw [mPoly_eq (by rw [lza, lzb]) (by rw [lza]; omega)] at hs
    rw [← hzp, hwd.2, ea, eb] at hs
    have e : (frameOf s.X s.H s.K ipk.index m z τ k deg).q (sideOf s) c.w c.za c.zb
        - (frameOf s.X s.H s.K ipk.index m z τ k deg).t * interpolate s.X s.inputs
        = (0 : F[X]) + (bivariatePoly s.H m.alpha * (C m.eta_a * blind s.H.size (sideOf s).a c.za
          + C m.eta_b * blind s.H.size (sideOf s).b c.zb
          + C m.eta_c * (blind s.H.size (sideOf s).a c.za * blind s.H.size (sideOf s).b c.zb))
        - tSum s.H s.K ipk.index m * (blind s.H.size (sideOf s).I c.w + interpolate s.X s.inputs)) := by
      unfold Frame.q frameOf
      dsimp only
      ring
    rw [e]
    exact hs
  refine ⟨r1, r2, r3, m, β, q, mask, o3, fun k => ?_⟩
  have eo1 : o1 = ⟨(frameOf s.X s.H s.K ipk.index m β τ k deg).w (sideOf s) c.w,
      blind s.H.size (sideOf s).a c.za, blind s.H.size (sideOf s).b c.zb, mask⟩ := by
    rw [← ho1, hwd.1]
    rfl
  have eo2 : o2 = ⟨tSum s.H s.K ipk.index m, (q % (X ^ s.H.size - 1)).divX, q / (X ^ s.H.size - 1)⟩ := by
    rw [← ho2, et]
  refine
    { first := hv1, second := hβ, hα := hα, hβ := hβ', n3 := n3, tdeg := htd, wmul := ?_, sub := ⟨p, hsub⟩,
      c1 := by rw [← eo1]; exact hr1
      hmask := hmask, hq := ?_, hsum := ?_
      c2 := by show commitAll _ c (SecondOracles.polys s.H ⟨tSum s.H s.K ipk.index m, _, _⟩) = _; rw [← eo2]; exact hr2
      third := ho3, c3 := hr3, fin := ?_ }
  · have := hwd.2
    rw [hwd.1] at this
    exact this
  · rw [hq, em]
    unfold Frame.q frameOf
    dsimp only
    ring
  · exact hsum'
  · rw [← eo1]
    show finish rng ipk pi _ (o1.polys ++ SecondOracles.polys s.H ⟨tSum s.H s.K ipk.index m, _, _⟩ ++ _) r1 r2 r3 = _
    rw [← eo2]
    exact hp

end Zkp.Marlin
