/- Property C105: Marlin's proofs hide the witness. -/
import Verif.Proof.MarlinTwinEq

set_option linter.unusedSectionVars false
set_option linter.unusedSimpArgs false

namespace Zkp.Marlin

open Polynomial

variable {F : Type} [Field F] [DecidableEq F]
variable {G1 G2 GT : Type} [AddCommGroup G1] [AddCommGroup G2] [AddCommGroup GT]
  [Module F G1] [Module F G2] [Module F GT]

open Kzg (Twin Alike Opened Pair kept SameOpening)

set_option maxHeartbeats 1000000 in
theorem twin_runs {mk : Nat → Option (Domain F)} {rng : FsRng F G1 G2} {τ k : F} {g γ : G1}
    {h : G2} {ipk : IndexProverKey F G1 G2} {ivk : IndexVerifierKey F G1 G2} {H0 K0 : Domain F} {deg : Nat}
    (key : Keys mk τ g γ h ipk ivk H0 K0 deg) (hg : g = k • γ) (hτ : τ ≠ 0) {pi : List F} {s s' : PState F}
    (vH : s.H.Valid) (ein : s'.inputs = s.inputs) (eX : s'.X = s.X) (eH : s'.H = s.H) (eK : s'.K = s.K)
    {c c' : Coins F} {m m' : FirstMsg F} {z z' : F} (hz : τ ≠ z) {π π' : Proof F G1}
    (hc' : c' = (frameOf s.X s.H s.K ipk.index m z τ k deg).move (sideOf s) (sideOf s') c)
    (hh : ∀ l, (c.hide l).1.natDegree ≤ 1 ∧ (c.hide l).2.natDegree ≤ 1)
    (hh' : ∀ l, (c'.hide l).1.natDegree ≤ 1 ∧ (c'.hide l).2.natDegree ≤ 1)
    {r1 r2 r3 r1' r2' r3' : List (Kzg.LabeledCommitment G1 × Kzg.Randomness F)} {q mask q' mask' : F[X]}
    {o3 o3' : ThirdOracles F}
    (R : Ran mk rng ipk ivk ipk.committer_key pi s c π (frameOf s.X s.H s.K ipk.index m z τ k deg) r1 r2 r3 q mask o3)
    (R' : Ran mk rng ipk ivk ipk.committer_key pi s' c' π' (frameOf s'.X s'.H s'.K ipk.index m' z' τ k deg)
      r1' r2' r3' q' mask' o3') : Agree π π' := by
  have hdeg1 : 1 ≤ deg := by have := key.hdeg; omega
  have hhd : ∀ l, (c.hide l).1.natDegree ≤ deg ∧ (c.hide l).2.natDegree ≤ deg :=
    fun l => ⟨(hh l).1.trans hdeg1, (hh l).2.trans hdeg1⟩
  have hhd' : ∀ l, (c'.hide l).1.natDegree ≤ deg ∧ (c'.hide l).2.natDegree ≤ deg :=
    fun l => ⟨(hh' l).1.trans hdeg1, (hh' l).2.trans hdeg1⟩
  obtain ⟨inp, wit, za, zb, D', H', K'⟩ := s'
  dsimp only at ein eX eH eK
  subst ein eX eH eK
  set s' : PState F := ⟨s.inputs, wit, za, zb, s.X, s.H, s.K⟩ with hs'
  have hf := Frame.fine R hτ hz
  set f := frameOf s.X s.H s.K ipk.index m z τ k deg with hfd
  set S := sideOf s with hS
  set S' := sideOf s' with hS'
  have ew : c'.w = c.w + f.shift S.I S'.I := by rw [hc']; rfl
  have ea : c'.za = c.za + f.shift S.a S'.a := by rw [hc']; rfl
  have eb : c'.zb = c.zb + f.shift S.b S'.b := by rw [hc']; rfl
  set c0 := f.c0 S S' c.w c.za c.zb with hc0
  set DD := f.D S S' c.w c.za c.zb with hDD
  have em : c'.mask = c.mask + DD + f.E c0 := by rw [hc']; rfl
  have eh : ∀ l, c'.hide l = ((c.hide l).1 + C (f.e1 S S' c.w c.za c.zb l) * (X - C z),
      (c.hide l).2 + C (f.e2 S S' c.w c.za c.zb l) * (X - C z)) := by
    intro l; rw [hc']; rfl
  -- the first round
  have hDsum : ∑ i ∈ Finset.range s.H.size, DD.eval (s.H.ω ^ i) = 0 := by
    have h1 := R.hsum m z τ k deg R.hα
    have h2 : ∑ i ∈ Finset.range s.H.size, (f.q S' c'.w c'.za c'.zb - f.t * interpolate s.X s.inputs).eval (s.H.ω ^ i) = 0 :=
      R'.hsum m z τ k deg R.hα
    have h1 : ∑ i ∈ Finset.range s.H.size, (f.q S c.w c.za c.zb - f.t * interpolate s.X s.inputs).eval (s.H.ω ^ i) = 0 := h1
    have h3 := congrArg₂ (fun x y : F => x - y) h1 h2
    rw [sub_zero, ← Finset.sum_sub_distrib] at h3
    rw [← h3]
    refine Finset.sum_congr rfl fun i _ => ?_
    rw [← eval_sub, ew, ea, eb, hDD]
    unfold Frame.D
    congr 1
    ring
  have emask : mask' = mask + DD + f.E c0 := by
    have h1 := R'.hmask
    rw [em] at h1
    rw [h1, R.hmask]
    exact mask_moved vH rfl R.n3 hDsum
  have hck := key.hck
  have c1 := R.c1
  have c2 := R.c2
  have c3 := R.c3
  have c1' : commitAll ipk.committer_key c' (FirstOracles.polys
    ⟨f.w S' c'.w, blind s.H.size S'.a c'.za, blind s.H.size S'.b c'.zb, mask'⟩) = .ok r1' := R'.c1
  rw [hck] at c1 c1' c2 c3
  have wm : f.w S c.w * (X ^ f.nD - 1) = blind f.n S.I c.w := R.wmul
  have wm' : f.w S' c'.w * (X ^ f.nD - 1) = blind f.n S'.I c'.w := R'.wmul
  obtain ⟨t1, t1', ⟨p1, q1, x1, y1⟩, ⟨p1', q1', x1', y1'⟩, tw1⟩ := commitAll_twin (z := z) hhd hhd' (by
    unfold FirstOracles.polys
    dsimp only
    refine .cons ?_ (.cons ?_ (.cons ?_ (.cons ?_ .nil)))
    · refine alike_hidden hg hz deg "w" ?_ ?_
      · rw [ew] at wm' ⊢
        exact (w_keep hf wm wm').symm
      · rw [eh, ew]
        rfl
    · refine alike_hidden hg hz deg "z_a" ?_ ?_
      · rw [ea]
        exact (blind_keep hf S.a S'.a c.za).symm
      · rw [eh, ea]
        rfl
    · refine alike_hidden hg hz deg "z_b" ?_ ?_
      · rw [eb]
        exact (blind_keep hf S.b S'.b c.zb).symm
      · rw [eh, eb]
        rfl
    · refine alike_plain deg "mask" ?_ ?_
      · have a1 : DD.eval z = 0 := D_keep hf S S' c.w c.za c.zb
        have a2 : (f.E c0).eval z = 0 := E_at (f := f) c0
        rw [emask, eval_add, eval_add, a1, a2]
        ring
      · have a1 : DD.eval τ + (f.E c0).eval τ = 0 := DE_tau hf S S' c.w c.za c.zb
        rw [emask, eval_add, eval_add, add_assoc, a1, add_zero]) c1 c1'
  have com1 : r1.map (·.1.commitment) = r1'.map (·.1.commitment) := by
    rw [q1, q1', twin_comms tw1]
  have e1 := R.first
  have e1' := R'.first
  rw [← com1, e1] at e1'
  have e1' : (s.H, s.K, m) = (s.H, s.K, m') := Except.ok.inj e1'
  have hm : m = m' := congrArg (fun x => x.2.2) e1'
  subst hm
  -- the second round
  have hq' : q' = q + f.E c0 := by
    have h1 := R'.hq
    have h1 : q' = mask' + f.q S' c'.w c'.za c'.zb - f.t * interpolate s.X s.inputs := h1
    have h2 : q = mask + f.q S c.w c.za c.zb - f.t * interpolate s.X s.inputs := R.hq
    rw [h1, h2, emask, ew, ea, eb, hDD]
    unfold Frame.D
    ring
  have c2' : commitAll ipk.committer_key c' (SecondOracles.polys s.H
    ⟨f.t, (q' % (X ^ s.H.size - 1)).divX, q' / (X ^ s.H.size - 1)⟩) = .ok r2' := R'.c2
  rw [hck] at c2'
  obtain ⟨d1, d2⟩ := q_div (f := f) R.n3 q c0
  obtain ⟨t2, t2', ⟨p2, q2, x2, y2⟩, ⟨p2', q2', x2', y2'⟩, tw2⟩ := commitAll_twin (z := z) hhd hhd' (by
    unfold SecondOracles.polys
    dsimp only
    refine .cons ?_ (.cons ?_ (.cons ?_ .nil))
    · exact alike_plain deg "t" rfl rfl
    · refine alike_bounded (c0 := c0) hg deg (s.H.size - 2) "g_1" ?_ ?_ ?_
      · rw [hq']
        exact d2
      · rw [eh]
        rfl
      · rw [eh]
        rfl
    · have d1 : q' / (X ^ s.H.size - 1) = q / (X ^ s.H.size - 1) := by rw [hq']; exact d1
      refine alike_plain deg "h_1" ?_ ?_
      · rw [d1]
      · rw [d1]) c2 c2'
  have com2 : r2.map (·.1.commitment) = r2'.map (·.1.commitment) := by
    rw [q2, q2', twin_comms tw2]
  have e2 := R.second
  have e2' := R'.second
  rw [← com1, ← com2] at e2'
  have e2' : Except.ok z = Except.ok z' := e2.symm.trans e2'
  have hzz : z = z' := Except.ok.inj e2'
  subst hzz
  -- the third round
  have e3 : o3 = o3' := by
    have a := R.third
    have a' : thirdRound mk ipk.index s m z = .ok o3' := R'.third
    exact Except.ok.inj (a.symm.trans a')
  subst e3
  have c3' : commitAll ipk.committer_key c' (o3.polys s.K) = .ok r3' := R'.c3
  rw [hck] at c3'
  have e3 : r3 = r3' := by
    have z1 : c'.hide "g_2" = c.hide "g_2" := by
      rw [eh]
      unfold Frame.e1 Frame.e2
      simp
    have z2 : c'.hide "h_2" = c.hide "h_2" := by
      rw [eh]
      unfold Frame.e1 Frame.e2
      simp
    have : commitAll (G1 := G1) ⟨Kzg.pows τ g (deg + 1), Kzg.pows τ γ (deg + 1), deg⟩ c' (o3.polys s.K)
        = commitAll ⟨Kzg.pows τ g (deg + 1), Kzg.pows τ γ (deg + 1), deg⟩ c (o3.polys s.K) := by
      unfold commitAll ThirdOracles.polys
      simp only [List.map_cons, List.map_nil, z1, z2]
    rw [this, c3] at c3'
    exact Except.ok.inj c3'
  subst e3
  obtain ⟨t3, p3, q3, x3, y3⟩ := commitAll_commits hhd c3
  obtain ⟨t0, p0, q0, x0, y0⟩ := key.comms
  -- the openings
  obtain ⟨val, op, hproof, hopen, hval⟩ := finish_ok R.fin
  obtain ⟨val', op', hproof', hopen', hval'⟩ := finish_ok R'.fin
  rw [← com1, ← com2] at hproof' hopen'
  set qs := querySet (⟨s.H, s.K, m.alpha, m.eta_a, m.eta_b, m.eta_c, z,
    rng.draw [.seed ivk pi, .comms (r1.map (·.1.commitment)), .comms (r2.map (·.1.commitment)),
        .comms (r3.map (·.1.commitment))] 0⟩ : VState F) with hqs
  have hpairs : List.Forall₂ (Pair qs z) (t0 ++ (t1 ++ t2 ++ t3)) (t0 ++ (t1' ++ t2' ++ t3)) := by
    refine forall₂_append (pairs_rfl _) (forall₂_append (forall₂_append (pairs tw1 ?_) (pairs tw2 ?_)) (pairs_rfl _))
    · intro t ht x hx
      have hm : t.1 ∈ t1.map (·.1) := List.mem_map_of_mem ht
      rw [← p1] at hm
      refine query_beta ?_ x hx
      simp only [FirstOracles.polys, List.mem_cons, List.not_mem_nil, or_false] at hm
      rcases hm with hm | hm | hm | hm <;> rw [hm] <;> simp
    · intro t ht x hx
      have hm : t.1 ∈ t2.map (·.1) := List.mem_map_of_mem ht
      rw [← p2] at hm
      refine query_beta ?_ x hx
      simp only [SecondOracles.polys, List.mem_cons, List.not_mem_nil, or_false] at hm
      rcases hm with hm | hm | hm <;> rw [hm] <;> simp
  have hmem : ∀ {a b c d : List (Opened F G1)},
      (∀ t ∈ a, Kzg.Commits τ g γ deg t.1 t.2.1 t.2.2) → (∀ t ∈ b, Kzg.Commits τ g γ deg t.1 t.2.1 t.2.2) →
      (∀ t ∈ c, Kzg.Commits τ g γ deg t.1 t.2.1 t.2.2) → (∀ t ∈ d, Kzg.Commits τ g γ deg t.1 t.2.1 t.2.2) →
      ∀ t ∈ a ++ (b ++ c ++ d), Kzg.Commits τ g γ deg t.1 t.2.1 t.2.2 := by
    intro a b c d ha hb hc hd t ht
    simp only [List.mem_append] at ht
    rcases ht with ht | (ht | ht) | ht
    exacts [ha t ht, hb t ht, hc t ht, hd t ht]
  have hcom := hmem y0 y1 y2 y3
  have hcom' := hmem y0 y1' y2' y3
  have hps : allPolys ipk.index ⟨f.w S c.w, blind s.H.size S.a c.za, blind s.H.size S.b c.zb, mask⟩
      ⟨f.t, (q % (X ^ s.H.size - 1)).divX, q / (X ^ s.H.size - 1)⟩ o3 s.H s.K
      = (t0 ++ (t1 ++ t2 ++ t3)).map (·.1) := by
    unfold allPolys
    rw [List.map_append, List.map_append, List.map_append, p0, p1, p2, p3]
  have hps' : allPolys ipk.index ⟨f.w S' c'.w, blind s.H.size S'.a c'.za, blind s.H.size S'.b c'.zb, mask'⟩
      ⟨f.t, (q' % (X ^ s.H.size - 1)).divX, q' / (X ^ s.H.size - 1)⟩ o3 s.H s.K
      = (t0 ++ (t1' ++ t2' ++ t3)).map (·.1) := by
    unfold allPolys
    rw [List.map_append, List.map_append, List.map_append, p0, p1', p2', p3]
  have hvals : qs.map val = qs.map val' := by
    refine List.map_congr_left fun lx hlx => ?_
    obtain ⟨l, x⟩ := lx
    have hl := query_label hlx
    rw [← allPolys_labels ipk.index ⟨f.w S c.w, blind s.H.size S.a c.za, blind s.H.size S.b c.zb, mask⟩
      ⟨f.t, (q % (X ^ s.H.size - 1)).divX, q / (X ^ s.H.size - 1)⟩ o3 s.H s.K, hps, List.map_map] at hl
    obtain ⟨t, ht, hlt⟩ := List.mem_map.mp hl
    obtain ⟨t', ht', hp⟩ := forall₂_left hpairs ht
    have hlt : t.1.label = l := hlt
    have hlab := hp.twin.label (hcom t ht) (hcom' t' ht')
    have v1 := hval t.1 (by
      have : t.1 ∈ (t0 ++ (t1 ++ t2 ++ t3)).map (·.1) := List.mem_map_of_mem ht
      rw [← hps] at this
      exact this) x
    have v2 := hval' t'.1 (by
      have : t'.1 ∈ (t0 ++ (t1' ++ t2' ++ t3)).map (·.1) := List.mem_map_of_mem ht'
      rw [← hps'] at this
      exact this) x
    rw [← hlab, hlt] at v2
    rw [hlt] at v1
    rw [v1, v2]
    rcases hp with rfl | ⟨tw, hx⟩
    · rfl
    · have hx := hx x (by rw [hlt]; exact hlx)
      rw [hx]
      exact tw.value
  have hr : ipk.index_rands ++ r1.map (·.2) ++ r2.map (·.2) ++ r3.map (·.2)
      = (t0 ++ (t1 ++ t2 ++ t3)).map (·.2.2) := by
    rw [List.map_append, List.map_append, List.map_append, x0, x1, x2, x3]
    simp only [List.append_assoc]
  have hr' : ipk.index_rands ++ r1'.map (·.2) ++ r2'.map (·.2) ++ r3.map (·.2)
      = (t0 ++ (t1' ++ t2' ++ t3)).map (·.2.2) := by
    rw [List.map_append, List.map_append, List.map_append, x0, x1', x2', x3]
    simp only [List.append_assoc]
  have hv : qs.map val' = (querySet (⟨s.H, s.K, m.alpha, m.eta_a, m.eta_b, m.eta_c, z,
    rng.draw [.seed ivk pi, .comms (r1.map (·.1.commitment)), .comms (r2.map (·.1.commitment)),
        .comms (r3.map (·.1.commitment))] 0⟩ : VState F)).map val' := rfl
  rw [hck, hr] at hopen
  rw [hck, hr'] at hopen'
  have ho : Kzg.batchOpen ⟨Kzg.pows τ g (deg + 1), Kzg.pows τ γ (deg + 1), deg⟩ ((t0 ++ (t1 ++ t2 ++ t3)).map (·.1))
      qs (rng.opening [.seed ipk.index_verifier_key pi, .comms (r1.map (·.1.commitment)),
          .comms (r2.map (·.1.commitment)), .comms (r3.map (·.1.commitment)), .evals (qs.map val)])
        ((t0 ++ (t1 ++ t2 ++ t3)).map (·.2.2)) = .ok op := by
    rw [← hps]
    exact hopen
  have ho' : Kzg.batchOpen ⟨Kzg.pows τ g (deg + 1), Kzg.pows τ γ (deg + 1), deg⟩ ((t0 ++ (t1' ++ t2' ++ t3)).map (·.1))
      qs (rng.opening [.seed ipk.index_verifier_key pi, .comms (r1.map (·.1.commitment)),
          .comms (r2.map (·.1.commitment)), .comms (r3.map (·.1.commitment)), .evals (qs.map val)])
        ((t0 ++ (t1' ++ t2' ++ t3)).map (·.2.2)) = .ok op' := by
    rw [← hps', hvals]
    exact hopen'
  have hsame := Kzg.batchOpen_pair hz hpairs hcom hcom' ho ho'
  refine ⟨?_, ?_, ?_⟩
  · rw [hproof, hproof']
  · rw [hproof, hproof']
    exact hvals
  · rw [hproof, hproof']
    exact hsame

/-- C105: let two assignments of the same circuit with the same public inputs be given, and a proof `π`.
There is a bijection of the coins the prover can draw such that the run on the first assignment with coins
`c` and the run on the second with the corresponding coins either both output `π` or both output another
proof - provided that both give a proof at all, and that neither draws a zero for `z_a` or `z_b` (prover.rs
then computes another polynomial, as its `zip` truncates).  So the proof tells nothing about the witness.
The blinding generator spans the group, and the point `β` at which `π` is opened is not the trapdoor. -/
theorem C105 {checked : Bool} {mk : Nat → Option (Domain F)} (hmk : MkOk mk) (rng : FsRng F G1 G2)
    {N : Nat} {τ : F} {g γ : G1} {h : G2} (hτ : τ ≠ 0) (hγ : Cp.Spans F γ) {cs0 cs cs' : CS F}
    {ipk : IndexProverKey F G1 G2} {ivk : IndexVerifierKey F G1 G2}
    (hi : index checked mk (Kzg.setup N τ g γ h) cs0 = .ok (ipk, ivk))
    (hc : cs.constraints = cs0.constraints) (hv : cs.Valid)
    (hc' : cs'.constraints = cs0.constraints) (hv' : cs'.Valid)
    {pi : List F} (hin : cs.inputs = 1 :: pi) (hin' : cs'.inputs = 1 :: pi)
    (hl : cs0.inputs.length = pi.length + 1) (hpow : ∃ k, pi.length + 1 = 2 ^ k)
    {H : Domain F} (hH : mk ivk.info.num_constraints = some H) (π : Proof F G1)
    (hβ : ∀ c1 c2 c3 i, π.commitments = [c1, c2, c3] → rng.draw [.seed ivk pi, .comms c1, .comms c2] i ≠ τ) :
    ∃ f : Coins F ≃ Coins F, (∀ c, Drawn H.size c ↔ Drawn H.size (f c)) ∧
      ∀ c, Drawn H.size c → c.za ≠ 0 → c.zb ≠ 0 → (f c).za ≠ 0 → (f c).zb ≠ 0 →
        ∀ π₁ π₂, prove mk rng ipk cs c = .ok π₁ → prove mk rng ipk cs' (f c) = .ok π₂ →
          (Agree π₁ π ↔ Agree π₂ π) := by
  classical
  obtain ⟨H0, K0, deg, key⟩ := index_ok hmk hi
  obtain ⟨k, hk, -⟩ := hγ g
  have hl1 : cs.inputs.length = cs0.inputs.length := by rw [hin, hl]; rfl
  have hl1' : cs'.inputs.length = cs0.inputs.length := by rw [hin', hl]; rfl
  have hpw : ∃ k, cs.inputs.length = 2 ^ k := by rw [hl1, hl]; exact hpow
  have hpw' : ∃ k, cs'.inputs.length = 2 ^ k := by rw [hl1', hl]; exact hpow
  by_cases hinit : ∃ s s', proverInit mk ipk.index cs = .ok s ∧ proverInit mk ipk.index cs' = .ok s'
  swap
  · refine ⟨Equiv.refl _, fun c => Iff.rfl, fun c _ _ _ _ _ π₁ π₂ h1 h2 => absurd ?_ hinit⟩
    unfold prove at h1 h2
    obtain ⟨s, hs, -⟩ := Kzg.bind_ok h1
    obtain ⟨s', hs', -⟩ := Kzg.bind_ok h2
    exact ⟨s, s', hs, hs'⟩
  obtain ⟨s, s', hs, hs'⟩ := hinit
  obtain ⟨s1, -, -, -, -, hD, hHs, hKs⟩ := init_ok hs
  obtain ⟨s1', -, -, -, -, hD', hHs', hKs'⟩ := init_ok hs'
  have ein : s'.inputs = s.inputs := by rw [s1, s1', hin, hin']
  have eX : s'.X = s.X := by rw [ein, hD] at hD'; exact (Option.some.inj hD').symm
  have eH : s'.H = s.H := by rw [hHs] at hHs'; exact (Option.some.inj hHs').symm
  have eK : s'.K = s.K := by rw [hKs] at hKs'; exact (Option.some.inj hKs').symm
  have eHH : s.H = H := by rw [key.hinfo, hH] at hHs; exact (Option.some.inj hHs).symm
  have vH := hmk.valid hHs
  subst eHH
  -- the coins and challenges of one run that gives `π`
  by_cases hex : (∃ c π₁, Drawn s.H.size c ∧ c.za ≠ 0 ∧ c.zb ≠ 0 ∧ prove mk rng ipk cs c = .ok π₁ ∧ Agree π₁ π) ∨
      (∃ c π₁, Drawn s.H.size c ∧ c.za ≠ 0 ∧ c.zb ≠ 0 ∧ prove mk rng ipk cs' c = .ok π₁ ∧ Agree π₁ π)
  swap
  · push Not at hex
    refine ⟨Equiv.refl _, fun c => Iff.rfl, fun c hd a b a' b' π₁ π₂ h1 h2 => ⟨fun hA => ?_, fun hA => ?_⟩⟩
    · exact absurd hA (hex.1 c π₁ hd a b h1)
    · exact absurd hA (hex.2 c π₂ hd a' b' h2)
  have hframe : ∃ m z, τ ≠ z ∧ (frameOf s.X s.H s.K ipk.index m z τ k deg).Low ∧
      ∃ c1 c2 c3, π.commitments = [c1, c2, c3] ∧ verifierFirst mk rng ivk pi c1 = .ok (s.H, s.K, m) ∧
        verifierSecond rng s.H ivk pi c1 c2 = .ok z := by
    have key2 : ∀ {s₀ : PState F} {c : Coins F} {π₁ : Proof F G1} {m z r1 r2 r3 q mask o3},
        s₀.X = s.X → s₀.H = s.H → s₀.K = s.K →
        Ran mk rng ipk ivk ipk.committer_key pi s₀ c π₁ (frameOf s₀.X s₀.H s₀.K ipk.index m z τ k deg) r1 r2 r3 q mask o3 →
        Agree π₁ π → ∃ m z, τ ≠ z ∧ (frameOf s.X s.H s.K ipk.index m z τ k deg).Low ∧
      ∃ c1 c2 c3, π.commitments = [c1, c2, c3] ∧ verifierFirst mk rng ivk pi c1 = .ok (s.H, s.K, m) ∧
        verifierSecond rng s.H ivk pi c1 c2 = .ok z := by
      intro s₀ c π₁ m z r1 r2 r3 q mask o3 a1 a2 a3 R hA
      have hcm : π.commitments = [r1.map (·.1.commitment), r2.map (·.1.commitment), r3.map (·.1.commitment)] := by
        obtain ⟨val, op, hproof, -, -⟩ := finish_ok R.fin
        rw [← hA.commitments, hproof]
      have e1 := R.first
      have e2 := R.second
      have e3 := R.n3
      have e4 := R.tdeg
      rw [a1, a2, a3] at e4
      rw [a2, a3] at e1
      rw [a2] at e2 e3
      refine ⟨m, z, ?_, ⟨e3, ?_, e4⟩, _, _, _, hcm, e1, e2⟩
      · unfold verifierSecond at e2
        split at e2
        · cases e2
        · rename_i β j hsm
          have hz : β = z := Except.ok.inj e2
          unfold sampleOutside at hsm
          split at hsm
          · have hsm := Option.some.inj hsm
            have h0 := congrArg Prod.fst hsm
            dsimp only at h0
            rw [← hz, ← h0]
            exact (hβ _ _ _ _ hcm).symm
          · cases hsm
      · have := bivariatePoly_natDegree s.H m.alpha
        show (bivariatePoly s.H m.alpha).natDegree < s.H.size
        have := vH.pos
        omega
    rcases hex with ⟨c, π₁, hd, a, b, hp, hA⟩ | ⟨c, π₁, hd, a, b, hp, hA⟩
    · obtain ⟨r1, r2, r3, m, z, q, mask, o3, R⟩ := prove_ran hmk hi key hc hl1 hv hin hpw a b hd.2 hs hp
      exact key2 rfl rfl rfl (R k) hA
    · obtain ⟨r1, r2, r3, m, z, q, mask, o3, R⟩ := prove_ran hmk hi key hc' hl1' hv' hin' hpw' a b hd.2 hs' hp
      exact key2 eX eH eK (R k) hA
  obtain ⟨m, z, hz, hlow, c1, c2, c3, hcm, hfirst, hsecond⟩ := hframe
  set f := frameOf s.X s.H s.K ipk.index m z τ k deg with hf
  have hlS : (sideOf s).Low f.n := sideOf_low s
  have hlS' : (sideOf s').Low f.n := by
    have := sideOf_low s'
    rw [eH] at this
    exact this
  refine ⟨f.equiv (sideOf s) (sideOf s'), f.equiv_drawn hlow hlS hlS', fun c hd a b a' b' π₁ π₂ h1 h2 => ?_⟩
  have hd' : Drawn s.H.size (f.equiv (sideOf s) (sideOf s') c) := (f.equiv_drawn hlow hlS hlS' c).mp hd
  obtain ⟨r1, r2, r3, m₁, z₁, q, mask, o3, R⟩ := prove_ran hmk hi key hc hl1 hv hin hpw a b hd.2 hs h1
  obtain ⟨r1', r2', r3', m₂, z₂, q', mask', o3', R'⟩ := prove_ran hmk hi key hc' hl1' hv' hin' hpw' a' b' hd'.2 hs' h2
  have R := R k
  have R' := R' k
  -- a run that gives `π` has the challenges of `π`
  have chal : ∀ {r1 r2 r3 : List (Kzg.LabeledCommitment G1 × Kzg.Randomness F)} {m₁ z₁} {π₁ : Proof F G1},
      π₁.commitments = [r1.map (·.1.commitment), r2.map (·.1.commitment), r3.map (·.1.commitment)] →
      verifierFirst mk rng ivk pi (r1.map (·.1.commitment)) = .ok (s.H, s.K, m₁) →
      verifierSecond rng s.H ivk pi (r1.map (·.1.commitment)) (r2.map (·.1.commitment)) = .ok z₁ →
      Agree π₁ π → m₁ = m ∧ z₁ = z := by
    intro r1 r2 r3 m₁ z₁ π₁ hp f1 f2 hA
    have e := hA.commitments
    rw [hp, hcm] at e
    obtain ⟨e1, e2, -⟩ : r1.map (·.1.commitment) = c1 ∧ r2.map (·.1.commitment) = c2 ∧ _ := by simpa using e
    rw [e1, hfirst] at f1
    rw [e1, e2, hsecond] at f2
    have f1 := Except.ok.inj f1
    exact ⟨(congrArg (fun x => x.2.2) f1).symm, (Except.ok.inj f2).symm⟩
  have hp1 : π₁.commitments = [r1.map (·.1.commitment), r2.map (·.1.commitment), r3.map (·.1.commitment)] := by
    obtain ⟨val, op, hproof, -, -⟩ := finish_ok R.fin
    rw [hproof]
  have hp2 : π₂.commitments = [r1'.map (·.1.commitment), r2'.map (·.1.commitment), r3'.map (·.1.commitment)] := by
    obtain ⟨val, op, hproof, -, -⟩ := finish_ok R'.fin
    rw [hproof]
  have trans : ∀ {a b c : Proof F G1}, Agree a b → Agree a c → Agree b c := by
    intro a b c h1 h2
    refine ⟨h1.commitments.symm.trans h2.commitments, h1.evaluations.symm.trans h2.evaluations, ?_⟩
    have o1 := h1.openings
    have o2 := h2.openings
    generalize a.opening_proofs = x at o1 o2
    generalize b.opening_proofs = y at o1
    generalize c.opening_proofs = w at o2
    induction o1 generalizing w with
    | nil => cases o2; exact .nil
    | cons e _ ih =>
      cases o2 with
      | cons e' o2 => exact .cons ⟨e.1.symm.trans e'.1, e.2.symm.trans e'.2⟩ (ih _ o2)
  constructor
  · intro hA
    obtain ⟨em, ez⟩ := chal hp1 R.first R.second hA
    subst em ez
    exact trans (twin_runs key hk hτ vH ein eX eH eK hz rfl hd.2 hd'.2 R R') hA
  · intro hA
    have f1 := R'.first
    have f2 := R'.second
    rw [eH, eK] at f1
    rw [eH] at f2
    obtain ⟨em, ez⟩ := chal hp2 f1 f2 hA
    have em : m₂ = m := em
    have ez : z₂ = z := ez
    rw [em, ez] at R'
    have hback : c = (frameOf s'.X s'.H s'.K ipk.index m z τ k deg).move (sideOf s') (sideOf s)
        (f.equiv (sideOf s) (sideOf s') c) := by
      rw [eX, eH, eK]
      exact (f.move_move (sideOf s) (sideOf s') c).symm
    exact trans (twin_runs key hk hτ (eH ▸ vH) ein.symm eX.symm eH.symm eK.symm hz hback hd'.2 hd.2 R' R) hA

open Ex97 in
/-- The circuit of `cs97` - two numbers with product `y` and sum `y - 1` - with the numbers exchanged. -/
def swapped97 : CS F97 := { cs97 with aux := [3, 2] }

open Ex97 in
theorem swapped97_valid : swapped97.Valid := by
  intro w hw c hc
  have h0 : w (.input 0) = 1 := hw.1 0 1 rfl
  have h1 : w (.input 1) = 6 := hw.1 1 6 rfl
  have h2 : w (.aux 0) = 3 := hw.2 0 3 rfl
  have h3 : w (.aux 1) = 2 := hw.2 1 2 rfl
  have hc : c ∈ cs97.constraints := hc
  simp only [cs97, List.mem_cons, List.not_mem_nil, or_false] at hc
  rcases hc with rfl | rfl
  · simp only [R1C.Holds, LC.eval, List.map_cons, List.map_nil, List.sum_cons, List.sum_nil, h0, h1, h2, h3]
    decide
  · simp only [R1C.Holds, LC.eval, List.map_cons, List.map_nil, List.sum_cons, List.sum_nil, h0, h1, h2, h3]
    decide

open Ex97 in
/-- A proof that is output for `2 · 3 = 6` is output just as well for `3 · 2 = 6`, for every trapdoor but two. -/
example (checked : Bool) (τ g h : F97) (hτ : τ ≠ 0) (hτ' : τ ≠ 17) : ∃ ipk ivk π,
    index checked mk97 (Kzg.setup 13 τ g 1 h) cs97 = .ok (ipk, ivk) ∧
    prove mk97 rng97 ipk cs97 coins97 = .ok π ∧ ∃ f : Coins F97 ≃ Coins F97,
      (f coins97).za ≠ 0 → (f coins97).zb ≠ 0 →
      ∀ π₂, prove mk97 rng97 ipk swapped97 (f coins97) = .ok π₂ → Agree π₂ π := by
  obtain ⟨ipk, ivk, π, hi, hp⟩ := prove97 checked τ g 1 h
  have hinfo : ivk.info = ⟨4, 4, 3⟩ := by
    obtain ⟨ipk', ivk', hi', -, hinfo, -⟩ := index97 checked τ g 1 h
    rw [hi] at hi'
    have := congrArg Prod.snd (Except.ok.inj hi')
    rw [← hinfo]
    exact congrArg IndexVerifierKey.info this
  obtain ⟨f, -, hf⟩ := C105 mk97_ok rng97 hτ
    (fun p => ⟨p, by simp, fun y hy => by rw [hy, smul_eq_mul, mul_one]⟩)
    hi rfl cs97_valid (cs' := swapped97) rfl swapped97_valid (pi := [6]) rfl rfl rfl ⟨1, rfl⟩ (H := H4) (by rw [hinfo]; rfl) π
    (fun c1 c2 c3 i _ => by
      show (17 : F97) ≠ τ
      exact hτ'.symm)
  have hone : (1 : F97) ≠ 0 := by decide
  refine ⟨ipk, ivk, π, hi, hp, f, fun a b π₂ h2 => (hf coins97 ⟨?_, fun l => ?_⟩ hone hone a b π π₂ hp h2).mp
    ⟨rfl, rfl, ?_⟩⟩
  · change (X : F97[X]).degree < _
    rw [degree_X]
    decide
  · constructor <;> · change (X : F97[X]).natDegree ≤ 1; rw [natDegree_X]
  · generalize π.opening_proofs = l
    induction l with
    | nil => exact .nil
    | cons o l ih => exact .cons ⟨rfl, rfl⟩ ih

end Zkp.Marlin
